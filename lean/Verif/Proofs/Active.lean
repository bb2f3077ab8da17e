import Verif.Spec.Active
import Verif.Props.Conversation
import Verif.Props.SetupState
import Verif.Props.Reencoded

/-! Conversations with an attacker: what one delivery does. -/

namespace Axolotl
section
variable [C : Crypto]
open SessionState SessionBuilder RatchetingSession
open Spec (GoodPair Net Conv header Verifies SetUp Rejects Unforged UnforgedSetup)

theorem verifies_of_dwss (hC : C.Lawful) {s : SessionState} {m : WhisperMessage} {seed pt : Bytes} {s' : SessionState}
    (hv : s.senderChain.isSome → s.sessionVersion = some 3)
    (h : SessionCipher.decryptWithSessionState s m seed = .ok (pt, s')) : Verifies s m := by
  have hsc := (SessionCipher.dwss_ok h).1
  obtain ⟨k, rid, lid, h1, h2, h3, h4, h5⟩ := dwss_mac hC.hmac_len h (hv hsc)
  obtain ⟨body, mac, g1, _, g3⟩ := verifyMac_ok hC.hmac_len h5 (by omega)
  exact ⟨k, rid, lid, body, h1, decodePoint_KeyOf h2, decodePoint_KeyOf h3, by rw [g1, g3]⟩

theorem rejected (hC : C.Lawful) {s : SessionState} {m : WhisperMessage} {seed pt : Bytes} {s' : SessionState}
    (h : Rejects m s) (hd : SessionCipher.decryptWithSessionState s m seed = .ok (pt, s')) : False :=
  h.2 (verifies_of_dwss hC h.1 hd)

theorem setUp_of_process (hC : C.Lawful) {w : World} {a : Address} {m : PreKeyWhisperMessage} {x : SessionRecord × Option Nat}
    (hk : (w.loadSession a).hasSessionState m.version (Curve.serializePoint m.baseKey) = false)
    (h : processV3 w (w.loadSession a) m = .ok x) :
    ∃ s, SetUp w m s ∧ x.1 = (archiveUnlessFresh (w.loadSession a)).setState s := by
  rcases processV3_ok h with ⟨hk', _⟩ | ⟨_, sr, kp, ot, s0, s1, s2, g1, g2, g3, g4, g5, g6, g7, g8, g9⟩
  · rw [hk] at hk'; cases hk'
  rw [archive_load_state] at g5
  obtain ⟨okm, m1, rfl⟩ := bob_exact hC.hmac_len g5
  obtain ⟨n1, q1, _, rfl⟩ := setLocalRegistrationId_ok g6
  obtain ⟨n2, q2, _, rfl⟩ := setRemoteRegistrationId_ok g7
  obtain rfl : n2 = m.registrationId := by omega
  refine ⟨_, ⟨sr, kp, ot, okm, n1, ?_, signedPair_of g2, g3, ?_, m1, q1, rfl⟩, g8⟩
  · unfold World.loadSignedPreKey at g1
    split at g1
    · rename_i hs
      rw [hs, Except.ok.inj g1]
    · cases g1
  · intro i hi
    obtain ⟨pk, k, e1, e2, e3⟩ := g4 i hi
    refine ⟨pk, k, ?_, oneTimePair_of e2, e3⟩
    unfold World.loadPreKey at e1
    split at e1
    · rename_i hs
      rw [hs, Except.ok.inj e1]
    · cases e1

theorem setUp_version {w : World} {m : PreKeyWhisperMessage} {s : SessionState} (h : SetUp w m s) : s.sessionVersion = some 3 := by
  obtain ⟨_, _, _, _, _, _, _, _, _, _, _, rfl⟩ := h
  rfl

omit C in
/-- What is known of every parsed prekey message. -/
theorem parsed_shape {b : Bytes} {m : PreKeyWhisperMessage} (hm : PreKeyWhisperMessage.parse b = .ok m) :
    m.version = 3 ∧ m.registrationId < 2 ^ 32 ∧ WhisperMessage.parse m.message.serialized = .ok m.message := by
  cases b with
  | nil => simp [PreKeyWhisperMessage.parse] at hm
  | cons v rest =>
    unfold PreKeyWhisperMessage.parse at hm
    rw [if_neg (by simp)] at hm
    have h := prekeyWrap_ok hm
    unfold PreKeyWhisperMessage.parseBody at h
    simp only at h
    split at h
    · cases h
    rename_i h1
    split at h
    · cases h
    rename_i h2
    obtain ⟨p, hp, h⟩ := bind_eq_ok.1 h
    split at h
    · cases h
    obtain ⟨bk, _, h⟩ := bind_eq_ok.1 h
    obtain ⟨ik, _, h⟩ := bind_eq_ok.1 h
    obtain ⟨inner, hw, h⟩ := bind_eq_ok.1 h
    injection h with h
    subst h
    have hv : ByteUtil.highBitsToInt v = 3 := by
      simp only [CiphertextMessage.CURRENT_VERSION] at *
      omega
    obtain ⟨l1, l2, l3⟩ := parsed_range hp
    have hser : inner.serialized = p.message.getD [] := parse_serialized hw
    exact ⟨hv, l1, by rw [hser]; exact hw⟩

omit C in
/-- What either side sends can be read again. -/
theorem WireOk.inner {cv : Conv} {ids : Bool → ECPub} {hd : PkHeader} {b : Bool} {c : Ciphertext} (h : WireOk cv ids hd b c) :
    WhisperMessage.parse c.inner.serialized = .ok c.inner := by
  rcases h with ⟨m, rfl, hm⟩ | ⟨_, _, m, p, p', rfl, hp⟩
  · exact hm
  · have := (parsed_shape hp.parse).2.2
    rw [hp.message', ← hp.message] at this
    exact this

variable {ids : Bool → ECPub} {cv : Conv} {n : Net} {hd : PkHeader} {g : Ghost .v3} {b : Bool}

theorem GInv.unique (hg : GInv cv ids n g) (hw : WInv cv ids hd n g) {i j : Nat} {c c' : Ciphertext} {pt pt' : Bytes}
    (hi : (n.sent b)[i]? = some (c, pt)) (hj : (n.sent b)[j]? = some (c', pt'))
    (h : c.inner.serialized = c'.inner.serialized) : i = j := by
  have h1 := (hw.wire _ _ _ _ hi).inner
  rw [h, (hw.wire _ _ _ _ hj).inner] at h1
  refine hg.header_inj hi hj ?_
  unfold header
  rw [Except.ok.inj h1]

/-- The session of the conversation accepts only what the peer sent. -/
theorem open_accept (hC : C.Lawful) (hg : GInv cv ids n g) (hw : WInv cv ids hd n g) {s s' : SessionState}
    (hp : Party (ids b) (ids !b) (g.E (g.e b)) (g.n b) (last5 (g.full b)) s) {m : WhisperMessage}
    (hm : WhisperMessage.parse m.serialized = .ok m)
    (hu : Verifies s m → ∃ (i : Nat) (c : Ciphertext) (pt : Bytes), (n.sent (!b))[i]? = some (c, pt) ∧
      c.inner.serialized = m.serialized ∧ (i ∉ n.accepted b → n.inLimits cv b (header c)) ∧
      (i ∈ n.accepted b → n.remembered cv b (header c)))
    {seed pt : Bytes} (hd' : SessionCipher.decryptWithSessionState s m seed = .ok (pt, s'))
    (hseed : seed.length = 32) (hfresh : C.genPub (C.genPriv seed) ∉ n.keys) :
    ∃ (i : Nat) (c : Ciphertext) (g' : Ghost .v3), (n.sent (!b))[i]? = some (c, pt) ∧ i ∉ n.accepted b ∧
      c.inner = m ∧
      Party (ids b) (ids !b) (g'.E (g'.e b)) (g'.n b) (last5 (g'.full b)) s' ∧
      (∀ a, a ≠ b → g'.E (g'.e a) = g.E (g.e a) ∧ g'.n a = g.n a ∧ g'.full a = g.full a) ∧ g.Extends n.keys g' ∧
      ∀ net' : Net, net'.sent = n.sent → net'.accepted = upd n.accepted b (n.accepted b ++ [i]) →
        (∀ x ∈ C.genPub (C.genPriv seed) :: n.keys, x ∈ net'.keys) → GInv cv ids net' g' := by
  obtain ⟨i, c, pt', h1, h2, h3, h4⟩ := hu (verifies_of_dwss hC (fun _ => hp.version) hd')
  have hcm : c.inner = m := by
    have := (hw.wire _ _ _ _ h1).inner
    rw [h2, hm] at this
    exact (Except.ok.inj this).symm
  by_cases ha : i ∈ n.accepted b
  · have := hg.again hC hp h1 ha (h4 ha) seed
    rw [hcm, hd'] at this
    cases this
  · obtain ⟨s2, g', d1, d2, d3, d5, d4⟩ := hg.receive hC hp h1 ha (h3 ha) hseed hfresh
    rw [hcm, hd'] at d1
    obtain ⟨rfl, rfl⟩ := Prod.mk.inj (Except.ok.inj d1)
    refine ⟨i, c, g', h1, ha, hcm, d2, d3, d5, fun net' e1 e2 e3 => ?_⟩
    exact (d4 { net' with keys := C.genPub (C.genPriv seed) :: n.keys } e1 e2 rfl).same rfl rfl e3

theorem ConvFrom.keys {v : Kdf} {keys0 : List ECPub} {g0 : Ghost v} (h : ConvFrom hd keys0 g0 ids cv n) {keys : List ECPub}
    (hk : ∀ x ∈ n.keys, x ∈ keys) : ConvFrom hd keys0 g0 ids cv { n with keys := keys } := by
  obtain ⟨⟨g, hg, hw, hext⟩, hkeys⟩ := h
  have hwait : Waiting cv ids hd n g → Waiting cv ids hd { n with keys := keys } g := fun q =>
    ⟨q.waits, q.accepted, q.silent, q.none', q.announced, q.announcing, q.identity, q.self, q.new, q.reg, q.keys⟩
  exact ⟨⟨g, hg.same rfl rfl hk, ⟨hw.v3, hw.hdr, hw.wire, hw.trust,
    fun a => (hw.sides a).imp id fun q => ⟨q.1, hwait q.2⟩, fun x y => hwait (hw.waiting x y)⟩, hext⟩,
    fun x hx => hk x (hkeys x hx)⟩

/-- The session continues after it has accepted a message. -/
theorem open_continues (hC : C.Lawful) {keys0 : List ECPub} {g0 : Ghost .v3} (hext : g0.Extends keys0 g)
    (hkeys : ∀ x ∈ keys0, x ∈ n.keys) (hg : GInv cv ids n g) (hw : WInv cv ids hd n g) {r r' : SessionRecord} {s' : SessionState}
    (q2 : Party (ids b) (ids !b) (g.E (g.e b)) (g.n b) (last5 (g.full b)) r.sessionState)
    (q4 : b = false → cv.waits = true → r.sessionState.aliceBaseKey = some (Curve.serializePoint hd.baseKey))
    (q1 : (n.world b).sessions (cv.addr b) = some r) {m : WhisperMessage} (hm : WhisperMessage.parse m.serialized = .ok m)
    (hu : Unforged cv n b m) {seed pt : Bytes}
    (hd' : SessionCipher.decryptWithSessionState r.sessionState m seed = .ok (pt, s'))
    (hseed : seed.length = 32) (hfresh : C.genPub (C.genPriv seed) ∉ n.keys) {w' : World} {keys : List ECPub}
    (hk : ∀ x ∈ C.genPub (C.genPriv seed) :: n.keys, x ∈ keys)
    (h1 : w'.sessions (cv.addr b) = some r') (h2 : r'.sessionState = s') (h3 : w'.policy = (n.world b).policy)
    (h4 : w'.identities (cv.addr b).1 = (n.world b).identities (cv.addr b).1 ∨
      w'.identities (cv.addr b).1 = some (ids !b)) :
    ∃ (i : Nat) (c : Ciphertext), (n.sent (!b))[i]? = some (c, pt) ∧ i ∉ n.accepted b ∧ c.inner = m ∧
      ConvFrom hd keys0 g0 ids cv { n with
        world := upd n.world b w', accepted := upd n.accepted b (n.accepted b ++ [i]), keys := keys } := by
  obtain ⟨i, c, g', e1, e2, e3, e4, e5, e7, e6⟩ := open_accept hC hg hw q2 hm
    (fun hv => by
      by_cases hj : n.joined cv b
      · exact hu.current r hj q1 hv
      · exact absurd hv (hu.before r hj q1).2) hd' hseed hfresh
  refine ⟨i, c, e1, e2, e3, ⟨g', e6 _ rfl rfl hk, ?_, hext.trans e7 hkeys⟩,
    fun x hx => hk x (List.mem_cons_of_mem _ (hkeys x hx))⟩
  obtain ⟨p1, _, p3⟩ := dwss_same hd'
  have hnw : b = true → ¬ Waiting cv ids hd n g := by
    rintro rfl q
    have := q.silent
    simp only [Bool.not_true] at e1
    rw [this] at e1
    cases e1
  have hopen : Open cv ids hd g' b w' := by
    refine ⟨r', h1, by rw [h2]; exact e4, Or.inl (by rw [h2]; exact p3), ?_⟩
    intro x y
    rw [h2, ← q4 x y]
    exact p1.2.2.2.1
  cases b with
  | false => exact hw.after hopen e5 h3 h4 hnw (fun _ => by rw [upd_same]; simp)
  | true =>
    have hopen2 := hopen
    refine ⟨hw.v3, hw.hdr, hw.wire, ?_, ?_, ?_⟩
    rotate_right
    · intro hwt hacc
      simp only [upd_other _ _ (show false ≠ true by decide)] at hacc
      exact absurd (hw.waiting hwt hacc) (hnw rfl)
    · intro hwt
      simp only [upd_other _ _ (show false ≠ true by decide)]
      exact hw.trust hwt
    · intro a
      cases a with
      | true => left; simp only [upd_same]; exact hopen2
      | false =>
        rcases hw.sides false with ⟨r0, x1, x2, x3⟩ | ⟨_, q⟩
        · left
          obtain ⟨o1, o2, o3⟩ := e5 false (by decide)
          refine ⟨r0, by simp only [upd_other _ _ (show false ≠ true by decide)]; exact x1, ?_, x3⟩
          rw [o1, o2, o3]
          exact x2
        · exact absurd q (hnw rfl)

omit C in
/-- What the archive of a record holds after a new session was put in front. -/
theorem archived_get {w : World} {a : Address} {k : Nat} {p : SessionState}
    (h : (archiveUnlessFresh (w.loadSession a)).previousStates[k]? = some p) :
    ∃ r, w.sessions a = some r ∧ (r.sessionState :: r.previousStates)[k]? = some p := by
  unfold World.loadSession at h
  cases hr : w.sessions a with
  | none => rw [hr] at h; cases k <;> cases h
  | some r =>
    rw [hr] at h
    refine ⟨r, rfl, ?_⟩
    replace h : (if (r.sessionState :: r.previousStates).length > 40 then (r.sessionState :: r.previousStates).dropLast
      else r.sessionState :: r.previousStates)[k]? = some p := h
    split at h
    · rw [List.dropLast_eq_take, List.getElem?_take] at h
      split at h
      · exact h
      · cases h
    · exact h

/-- What a delivery by the attacker does. -/
structure Attacked (At : Net → Prop) (ids : Bool → ECPub) (cv : Conv) (n : Net) (b : Bool) (type : Nat) (bytes : Bytes) (keys : List ECPub)
    (o : Outcome Bytes) : Prop where
  refused : ∀ e, o.result = .error e → At { n with world := upd n.world b (o.final (n.world b)), keys := keys } ∧
    (o.final (n.world b)).sessions = (n.world b).sessions ∧ (o.final (n.world b)).preKeys = (n.world b).preKeys ∧
    ∀ name, (o.final (n.world b)).identities name = (n.world b).identities name ∨
      name = (cv.addr b).1 ∧ (o.final (n.world b)).identities name = some (ids !b)
  taken : ∀ pt, o.result = .ok pt → ∃ (i : Nat) (c : Ciphertext), (n.sent (!b))[i]? = some (c, pt) ∧ i ∉ n.accepted b ∧
    Spec.InnerBytes type bytes c.inner.serialized ∧
    At { n with
      world := upd n.world b (o.final (n.world b)), accepted := upd n.accepted b (n.accepted b ++ [i]), keys := keys }

theorem attacked_refused {keys0 : List ECPub} {g0 : Ghost .v3} (h : ConvFrom hd keys0 g0 ids cv n) {type : Nat} {bytes : Bytes} {keys : List ECPub} (hk : ∀ x ∈ n.keys, x ∈ keys)
    {ws : List Write} {e : Err} (hws : ws = [] ∨ ws = [.identity (cv.addr b).1 (ids !b)]) :
    Attacked (ConvFrom hd keys0 g0 ids cv) ids cv n b type bytes keys ⟨ws, .error e⟩ := by
  refine ⟨?_, by intro pt h; cases h⟩
  intro e' _
  obtain ⟨c1, c2, c3, c4⟩ := applyAll_other (ws := ws) (w := n.world b)
  have hs : ((n.world b).applyAll ws).sessions = (n.world b).sessions ∧
      ((n.world b).applyAll ws).preKeys = (n.world b).preKeys := by
    rcases hws with rfl | rfl <;> exact ⟨rfl, rfl⟩
  have hid : ∀ name, ((n.world b).applyAll ws).identities name = (n.world b).identities name ∨
      name = (cv.addr b).1 ∧ ((n.world b).applyAll ws).identities name = some (ids !b) := by
    intro name
    rcases hws with rfl | rfl
    · exact Or.inl rfl
    · by_cases hn : name = (cv.addr b).1
      · right
        refine ⟨hn, ?_⟩
        rw [hn]
        simp [World.applyAll, World.apply, upd]
      · left
        simp [World.applyAll, World.apply, upd, hn]
  refine ⟨conv_world_from h (by show ((n.world b).applyAll ws).sessions _ = _; rw [hs.1]) ?_
    (by intro _ i _; show ((n.world b).applyAll ws).preKeys _ = _; rw [hs.2]) c1 c2 c3 c4 hk, hs.1, hs.2, hid⟩
  rcases hid (cv.addr b).1 with h | ⟨_, h⟩
  · exact Or.inl h
  · right
    rintro _ rfl
    exact h

theorem conv_attack_from (hC : C.Lawful) {keys0 : List ECPub} {g0 : Ghost .v3} (h : ConvFrom hd keys0 g0 ids cv n) (hid : ∀ b, (n.world b).identityKeyPair.pub = ids b)
    {type : Nat} {bytes seed : Bytes} {seeds : Nat → Bytes} (ha : Spec.Attack cv n b type bytes)
    (hs1 : seed.length = 32) (hs2 : (seeds 0).length = 32) (hf1 : C.genPub (C.genPriv seed) ∉ n.keys)
    (hf2 : C.genPub (C.genPriv (seeds 0)) ∉ n.keys) :
    Attacked (ConvFrom hd keys0 g0 ids cv) ids cv n b type bytes (C.genPub (C.genPriv seed) :: C.genPub (C.genPriv (seeds 0)) :: n.keys)
      (Spec.receive (n.world b) (cv.addr b) type bytes seed seeds) := by
  have hk : ∀ x ∈ n.keys, x ∈ C.genPub (C.genPriv seed) :: C.genPub (C.genPriv (seeds 0)) :: n.keys :=
    fun x hx => List.mem_cons_of_mem _ (List.mem_cons_of_mem _ hx)
  have hk1 : ∀ x ∈ C.genPub (C.genPriv seed) :: n.keys,
      x ∈ C.genPub (C.genPriv seed) :: C.genPub (C.genPriv (seeds 0)) :: n.keys := by
    intro x hx
    rcases List.mem_cons.1 hx with rfl | hx
    · exact List.mem_cons_self ..
    · exact hk x hx
  have hk2 : ∀ x ∈ C.genPub (C.genPriv (seeds 0)) :: n.keys,
      x ∈ C.genPub (C.genPriv seed) :: C.genPub (C.genPriv (seeds 0)) :: n.keys :=
    fun x hx => List.mem_cons_of_mem _ hx
  generalize hK : C.genPub (C.genPriv seed) :: C.genPub (C.genPriv (seeds 0)) :: n.keys = K at hk hk1 hk2
  have hconv := h
  obtain ⟨⟨g, hg, hw, hext⟩, hkeys⟩ := h
  -- a record on which only the current state may accept
  have hload : ∀ r, (n.world b).sessions (cv.addr b) = some r → (n.world b).loadSession (cv.addr b) = { r with fresh := false } := by
    intro r hr
    unfold World.loadSession
    rw [hr]
  have hstored : ∀ {m : WhisperMessage} {r : SessionRecord} {pt : Bytes} {r' : SessionRecord}, WhisperMessage.parse m.serialized = .ok m →
      Unforged cv n b m → (n.world b).sessions (cv.addr b) = some r →
      SessionCipher.decryptWithSessionRecord { r with fresh := false } m seed seeds = .ok (pt, r') →
      ∀ w', w'.sessions (cv.addr b) = some r' → w'.policy = (n.world b).policy →
        (w'.identities (cv.addr b).1 = (n.world b).identities (cv.addr b).1 ∨ w'.identities (cv.addr b).1 = some (ids !b)) →
        ∃ (i : Nat) (c : Ciphertext), (n.sent (!b))[i]? = some (c, pt) ∧ i ∉ n.accepted b ∧ c.inner = m ∧
          ConvFrom hd keys0 g0 ids cv { n with
            world := upd n.world b w', accepted := upd n.accepted b (n.accepted b ++ [i]), keys := K } := by
    intro m r pt r' hm hu hr hdec w' g1 g2 g3
    rcases dwsr_ok hdec with ⟨s, e1, rfl⟩ | ⟨_, k, p, s, e1, e2, _, _⟩
    · rcases hw.sides b with ⟨r0, q1, q2, q3, q4⟩ | ⟨rfl, q⟩
      · rw [hr] at q1
        obtain rfl := Option.some.inj q1
        exact open_continues hC hext hkeys hg hw q2 q4 hr hm hu e1 hs1 hf1 hk1 g1 rfl g2 g3
      · exact (rejected hC (hu.before r (fun hj => hj q.waits rfl q.accepted) hr) e1).elim
    · exact (rejected hC (hu.previous r hr p (List.mem_of_getElem? e1)) e2).elim
  unfold Spec.receive
  unfold Spec.Attack at ha
  by_cases ht : type = 3
  · subst ht
    rw [if_pos rfl] at ha ⊢
    cases hp : PreKeyWhisperMessage.parse bytes with
    | error e => exact attacked_refused hconv hk (Or.inl rfl)
    | ok m =>
      have hu := ha m hp
      obtain ⟨sh1, sh2, sh3⟩ := parsed_shape hp
      show Attacked (ConvFrom hd keys0 g0 ids cv) ids cv n b 3 bytes K (SessionCipher.decryptPkmsg (n.world b) (cv.addr b) m seed seeds)
      rcases decryptPkmsg_cases (n.world b) (cv.addr b) m seed seeds with
        ⟨_, h'⟩ | ⟨htr, ⟨e, _, h'⟩ | ⟨r1, u, e, _, _, h'⟩ | ⟨r1, u, pt, r2, hv, hdec, h'⟩⟩
      · rw [h']; exact attacked_refused hconv hk (Or.inl rfl)
      · rw [h']; exact attacked_refused hconv hk (Or.inl rfl)
      · rw [h', hu.pinned htr, hid]; exact attacked_refused hconv hk (Or.inr rfl)
      · have hik : m.identityKey = ids !b := by rw [hu.pinned htr, hid]
        have hinner : ∀ {c : Ciphertext}, c.inner = m.message → Spec.InnerBytes 3 bytes c.inner.serialized := by
          intro c hc
          unfold Spec.InnerBytes
          rw [if_pos rfl]
          exact ⟨m, hp, by rw [hc]⟩
        have hfin : ((n.world b).applyAll ([.identity (cv.addr b).1 m.identityKey, .session (cv.addr b) r2] ++
              (u.map Write.removePreKey).toList)).sessions (cv.addr b) = some r2 ∧
            ((n.world b).applyAll ([.identity (cv.addr b).1 m.identityKey, .session (cv.addr b) r2] ++
              (u.map Write.removePreKey).toList)).identities (cv.addr b).1 = some (ids !b) := by
          rw [hik]
          cases u <;> simp [World.applyAll, World.apply, upd]
        have hpol := (applyAll_other (ws := [.identity (cv.addr b).1 m.identityKey, .session (cv.addr b) r2] ++
              (u.map Write.removePreKey).toList) (w := n.world b)).2.2.2
        refine ⟨(by intro e he; rw [h'] at he; cases he), ?_⟩
        intro pt' hpt'
        have hpt2 := hpt'
        rw [h'] at hpt'
        obtain rfl := Except.ok.inj hpt'
        have done : (∃ (i : Nat) (c : Ciphertext), (n.sent (!b))[i]? = some (c, pt) ∧ i ∉ n.accepted b ∧ c.inner = m.message ∧
            ConvFrom hd keys0 g0 ids cv { n with
              world := upd n.world b ((SessionCipher.decryptPkmsg (n.world b) (cv.addr b) m seed seeds).final (n.world b)),
              accepted := upd n.accepted b (n.accepted b ++ [i]), keys := K }) →
            ∃ (i : Nat) (c : Ciphertext), (n.sent (!b))[i]? = some (c, pt) ∧ i ∉ n.accepted b ∧
              Spec.InnerBytes 3 bytes c.inner.serialized ∧ ConvFrom hd keys0 g0 ids cv { n with
                world := upd n.world b ((SessionCipher.decryptPkmsg (n.world b) (cv.addr b) m seed seeds).final (n.world b)),
                accepted := upd n.accepted b (n.accepted b ++ [i]), keys := K } := by
          rintro ⟨i, c, x1, x2, x3, x4⟩
          exact ⟨i, c, x1, x2, hinner x3, x4⟩
        apply done
        cases hkn : ((n.world b).loadSession (cv.addr b)).hasSessionState m.version (Curve.serializePoint m.baseKey) with
        | true =>
          rcases processV3_ok hv with ⟨_, hx⟩ | ⟨hx, _⟩
          · obtain ⟨rfl, rfl⟩ := Prod.mk.inj hx
            obtain ⟨r, hr, _⟩ := (loaded_known _ _ m).1 hkn
            rw [hload r hr] at hdec
            rw [h']
            exact hstored sh3 hu.inner hr hdec _ hfin.1 hpol (Or.inr hfin.2)
          · rw [hkn] at hx; cases hx
        | false =>
          obtain ⟨s, hsu, rfl⟩ := setUp_of_process hC hkn hv
          have hnk : ¬ Spec.alreadyKnown (n.world b) (cv.addr b) m := by
            intro hx
            rw [(loaded_known _ _ m).2 hx] at hkn
            cases hkn
          rcases dwsr_ok hdec with ⟨s2, e1, rfl⟩ | ⟨_, k, p, s2, e1, e2, _, rfl⟩
          · -- the new session accepts
            obtain ⟨i, p, pt2, x1, x2, x3, x4, x5, x6⟩ :=
              hu.setup htr hnk s hsu (verifies_of_dwss hC (fun _ => setUp_version hsu) e1)
            have hwire := hw.wire _ _ _ _ x1
            have hpm : p.message = m.message := by
              have := hwire.inner
              rw [show (Ciphertext.preKey p).inner = p.message from rfl, x5, sh3] at this
              exact (Except.ok.inj this).symm
            rcases hwire with ⟨m0, hm0, _⟩ | ⟨hb, hwt, m0, p0, p', hp0, hann⟩
            · cases hm0
            obtain rfl : p = p0 := Ciphertext.preKey.inj hp0
            obtain rfl : b = false := by cases b with | false => rfl | true => cases hb
            obtain ⟨y1, y2, y3, _, _, _⟩ := hann.sent
            rcases hw.sides false with ⟨r, q1, q2, q3, q4⟩ | ⟨_, q⟩
            · refine absurd ⟨r, q1, ?_⟩ hnk
              refine ⟨r.sessionState, List.mem_cons_self .., ?_, ?_⟩
              · rw [q2.version, sh1]; rfl
              · rw [q4 rfl hwt, ← x2, y3]; rfl
            · obtain ⟨t1, t2⟩ := conv_first_from hC hext hkeys hg hw q x1 x6 hs1 hf1 (m := m) sh1 sh2 (x3.symm.trans y1) (x4.symm.trans y2)
                (x2.symm.trans y3) hik hpm.symm seeds
              rw [hpt2] at t1
              obtain rfl := Except.ok.inj t1
              refine ⟨i, _, x1, by rw [q.accepted]; simp, hpm, ?_⟩
              exact t2.keys hk1
          · -- an archived state accepts
            obtain ⟨r, hr, hget⟩ := archived_get e1
            cases k with
            | succ k => exact (rejected hC (hu.inner.previous r hr p (List.mem_of_getElem? hget)) e2).elim
            | zero =>
              obtain rfl : r.sessionState = p := Option.some.inj hget
              rcases hw.sides b with ⟨r0, q1, q2, q3, q4⟩ | ⟨rfl, q⟩
              · rw [hr] at q1
                obtain rfl := Option.some.inj q1
                rw [h']
                exact open_continues hC hext hkeys hg hw q2 q4 hr sh3 hu.inner e2 hs2 hf2 hk2 hfin.1 rfl hpol (Or.inr hfin.2)
              · exact (rejected hC (hu.inner.before r (fun hj => hj q.waits rfl q.accepted) hr) e2).elim
  · rw [if_neg ht] at ha ⊢
    cases hp : WhisperMessage.parse bytes with
    | error e => exact attacked_refused hconv hk (Or.inl rfl)
    | ok m =>
      have hu := ha m hp
      have hser := parse_serialized hp
      show Attacked (ConvFrom hd keys0 g0 ids cv) ids cv n b type bytes K (SessionCipher.decryptMsg (n.world b) (cv.addr b) m seed seeds)
      unfold SessionCipher.decryptMsg
      cases hr : (n.world b).sessions (cv.addr b) with
      | none =>
        have hc : (n.world b).containsSession (cv.addr b) = false := by unfold World.containsSession; rw [hr]; rfl
        rw [hc]
        exact attacked_refused hconv hk (Or.inl rfl)
      | some r =>
        have hc : (n.world b).containsSession (cv.addr b) = true := by unfold World.containsSession; rw [hr]; rfl
        rw [hc, hload r hr]
        simp only [Bool.not_true, Bool.false_eq_true, if_false]
        cases hdec : SessionCipher.decryptWithSessionRecord { r with fresh := false } m seed seeds with
        | error e => exact attacked_refused hconv hk (Or.inl rfl)
        | ok x =>
          obtain ⟨pt, r'⟩ := x
          refine ⟨(by intro e he; cases he), ?_⟩
          intro pt' hpt'
          obtain rfl := Except.ok.inj hpt'
          obtain ⟨i, c, x1, x2, x3, x4⟩ := hstored (by rw [hser]; exact hp) hu hr hdec
            ((n.world b).applyAll [.session (cv.addr b) r']) (by simp [World.applyAll, World.apply, upd]) rfl (Or.inl rfl)
          refine ⟨i, c, x1, x2, ?_, x4⟩
          unfold Spec.InnerBytes
          rw [if_neg ht, x3, hser]

theorem conv_attack (hC : C.Lawful) (h : ConvAt .v3 ids cv n) (hid : ∀ b, (n.world b).identityKeyPair.pub = ids b)
    {type : Nat} {bytes seed : Bytes} {seeds : Nat → Bytes} (ha : Spec.Attack cv n b type bytes)
    (hs1 : seed.length = 32) (hs2 : (seeds 0).length = 32) (hf1 : C.genPub (C.genPriv seed) ∉ n.keys)
    (hf2 : C.genPub (C.genPriv (seeds 0)) ∉ n.keys) :
    Attacked (ConvAt .v3 ids cv) ids cv n b type bytes (C.genPub (C.genPriv seed) :: C.genPub (C.genPriv (seeds 0)) :: n.keys)
      (Spec.receive (n.world b) (cv.addr b) type bytes seed seeds) := by
  obtain ⟨hd, g0, h⟩ := h.here
  obtain ⟨h1, h2⟩ := conv_attack_from hC h hid ha hs1 hs2 hf1 hf2
  refine ⟨fun e he => ?_, fun pt hpt => ?_⟩
  · obtain ⟨a1, a2⟩ := h1 e he
    exact ⟨a1.now, a2⟩
  · obtain ⟨i, c, a1, a2, a3, a4⟩ := h2 pt hpt
    exact ⟨i, c, a1, a2, a3, a4.now⟩

end
end Axolotl
