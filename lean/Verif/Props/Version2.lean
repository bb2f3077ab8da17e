import Verif.Proofs.Version2
import Verif.Proofs.SeedFree
import Verif.Proofs.Sessions

/-! # C79: sessions of version 2 -/

namespace Axolotl
section
variable [C : Crypto]
open SessionState
open Spec (Net Conv Steps Start2 header KeyOf CbcEncryption CbcDecryption MessageKey2 sessionMessage2 rebindAll versionOf
  sendRatchet cipherKeyOf2 macKeyOf2 ivOf2 sendCounter)

/-- **C79.** Two stores that hold the two ends of a version-2 session can go on: in any conversation from there, a message not
yet accepted and within the limits decrypts to exactly what was encrypted, and a message already accepted is refused as a
duplicate, leaving sessions and prekeys as they were. -/
theorem C79_conversation (hC : C.Lawful) {cv : Conv} {n0 n : Net} (h0 : Start2 cv n0) (h : Steps cv n0 n)
    {b : Bool} {i : Nat} {c : Ciphertext} {pt : Bytes} (hi : (n.sent (!b))[i]? = some (c, pt))
    {seed : Bytes} (hseed : seed.length = 32) (hfresh : C.genPub (C.genPriv seed) ∉ n.keys) (seeds : Nat → Bytes) :
    let o := Spec.receive (n.world b) (cv.addr b) c.getType c.serialize seed seeds
    (i ∉ n.accepted b → n.inLimits cv b (header c) → o.result = .ok pt) ∧
    (i ∈ n.accepted b → n.remembered cv b (header c) →
      o.result = .error .duplicateMessage ∧ (o.final (n.world b)).sessions = (n.world b).sessions ∧
      (o.final (n.world b)).preKeys = (n.world b).preKeys) := by
  have hinv := steps_inv hC h (start2_inv hC h0)
  intro o
  constructor
  · intro ha hl
    exact (conv_deliver hC hinv seeds hi (fun _ => hl) (fun x => absurd x ha) hseed hfresh).2.1 ha
  · intro ha hr
    exact (conv_deliver hC hinv seeds hi (fun x => absurd ha x) (fun _ => hr) hseed hfresh).2.2 ha

/-- **C79**, sending: either side can send in any state of the conversation, until its send counter is at its last value. -/
theorem C79_can_send (hC : C.Lawful) {cv : Conv} {n0 n : Net} (h0 : Start2 cv n0) (h : Steps cv n0 n) {b : Bool}
    {r : SessionRecord} (hr : (n.world b).sessions (cv.addr b) = some r) {pt : Bytes} (hpt : pt.length < 2 ^ 62) :
    (∃ c, (SessionCipher.encrypt (n.world b) (cv.addr b) pt).result = .ok c) ↔
      ∃ s k, r.sessionState.senderChain = some s ∧ s.chainKey = some k ∧ (k.index.getD 0) + 1 < 2 ^ 32 := by
  have hwait : cv.waits = false := by cases h0; rfl
  obtain ⟨v, ids, _, hd, g, hg, hw⟩ := steps_inv hC h (start2_inv hC h0)
  rcases hw.sides b with ho | ⟨hb', hwt⟩
  rotate_left
  · rw [hwt.waits] at hwait; cases hwait
  have hn : ∀ s k, r.sessionState.senderChain = some s → s.chainKey = some k → k.index.getD 0 = g.n b := by
    obtain ⟨r', q1, q2, _⟩ := ho
    rw [hr] at q1
    obtain rfl := Option.some.inj q1
    intro s k h1 h2
    rw [q2.sender] at h1
    obtain rfl := Option.some.inj h1
    obtain rfl := Option.some.inj h2
    rfl
  constructor
  · rintro ⟨c, hc⟩
    have hl := ho.limit hc
    obtain ⟨r', q1, q2, _⟩ := ho
    rw [hr] at q1
    obtain rfl := Option.some.inj q1
    exact ⟨_, _, q2.sender, rfl, hl⟩
  · rintro ⟨s, k, h1, h2, h3⟩
    rw [hn s k h1 h2] at h3
    obtain ⟨c, r', e1, _⟩ := ho.encrypt hg hw.v3 hw.hdr hC h3 hpt
    exact ⟨c, by rw [e1]⟩

/-- **C79**, headers: no two messages of the conversation carry the same ratchet key and counter. -/
theorem C79_headers_distinct (hC : C.Lawful) {cv : Conv} {n0 n : Net} (h0 : Start2 cv n0) (h : Steps cv n0 n)
    {b : Bool} {i j : Nat} {c c' : Ciphertext} {pt pt' : Bytes} (hi : (n.sent b)[i]? = some (c, pt))
    (hj : (n.sent b)[j]? = some (c', pt')) (he : header c = header c') : i = j := by
  obtain ⟨v, ids, _, hd, g, hg, hw⟩ := steps_inv hC h (start2_inv hC h0)
  exact hg.header_inj hi hj he

/-- **C79**, derivation: up to 127 blocks, `HKDFv2.deriveSecrets` is HKDF with blocks numbered from 0. -/
theorem C79_hkdf (hC : C.Lawful) (ikm info salt : Bytes) (L : Nat) (hL : L ≤ 127 * 32) (h0 : 0 < L) :
    Kdf.v2.deriveSecrets ikm info L salt = Spec.hkdf2 salt ikm info L := hkdf2_eq hC.hmac_len ikm info salt L hL h0

/-- **C79**, bytes: what `encrypt` returns in a version-2 session.  The version byte is 0x23, the keys come from the version-2
derivation, and the MAC covers the message only. -/
theorem C79_encrypt (hC : C.Lawful) (w : World) (a : Address) (pt : Bytes) (c : Ciphertext)
    (h : (SessionCipher.encrypt w a pt).result = .ok c)
    (hv : versionOf (w.loadSession a).sessionState = 2) (hp : (w.loadSession a).sessionState.pendingPreKey = none)
    (hpt : pt.length < 2 ^ 62) :
    let s := (w.loadSession a).sessionState
    ∃ ratchetKey ct, KeyOf (sendRatchet s) ratchetKey ∧
      CbcEncryption (cipherKeyOf2 (Spec.sendKey s)) (ivOf2 (Spec.sendKey s)) pt ct ∧ c.getType = 2 ∧
      let body := sessionMessage2 ratchetKey (sendCounter s) (s.previousCounter.getD 0) ct
      c.serialize = body ++ (C.hmac (macKeyOf2 (Spec.sendKey s)) body).take 8 := by
  unfold SessionCipher.encrypt at h
  have h := Outcome.ofRes_ok h
  simp only at h ⊢
  generalize (w.loadSession a).sessionState = s at h hv hp ⊢
  obtain ⟨⟨c', s'⟩, he, h⟩ := bind_eq_ok.1 h
  obtain ⟨_, rfl⟩ := Prod.mk.inj (Except.ok.inj h)
  obtain ⟨kdf, eph, ct, lid, rid, m, h1, h2, h3, h4, h5, h6, h7, h8, h9, h10, _⟩ := SessionCipher.ews_ok he
  have hkdf : kdf = .v2 := (Except.ok.inj ((createFor_two hv).symm.trans h1)).symm
  have hv' : SessionState.getSessionVersion s = 2 := (versionOf_eq s).trans hv
  subst hkdf
  rw [getMessageKeys_v2 hC.hmac_len _ rfl] at h3 h6
  simp only at h3 h6
  rw [hv'] at h6
  rw [sendKey_eq, sendCounter_eq]
  have k1 := sendRatchet_eq h2
  have k4 := aes_cbc hC h3
  have hct : ct.length < 2 ^ 62 + 16 := by
    have := padded_length pt
    rw [k4.length]
    omega
  have hw := whisper_bytes2 hC.hmac_len h6 k1.length_le (by omega)
  obtain rfl := h9 (by unfold SessionState.hasUnacknowledgedPreKeyMessage; rw [hp]; rfl)
  exact ⟨eph, ct, k1, k4, rfl, hw⟩

/-- **C79**, reading: a message of version 2 that is accepted was decrypted with the cipher key and IV of the position its header
names in a stored version-2 state, and its MAC was made with the MAC key of the same position.  No identity is involved. -/
theorem C79_decrypt (hC : C.Lawful) (w : World) (a : Address) (r : SessionRecord) (hr : w.sessions a = some r)
    (bs : Bytes) (m : WhisperMessage) (hp : WhisperMessage.parse bs = .ok m) (hm : m.messageVersion = 2)
    (seed : Bytes) (seeds : Nat → Bytes) (pt : Bytes)
    (h : (SessionCipher.decryptMsg w a m seed seeds).result = .ok pt) :
    ∃ s ∈ Spec.states r, ∃ cipherKey macKey iv body mac, versionOf s = 2 ∧
      MessageKey2 s m.senderRatchetKey m.counter cipherKey macKey iv ∧
      CbcDecryption cipherKey iv m.ciphertext pt ∧ bs = body ++ mac ∧ mac.length = 8 ∧
      mac = (C.hmac macKey body).take 8 := by
  have h0 := Outcome.ofRes_ok h
  split at h0
  · cases h0
  · obtain ⟨⟨pt', r'⟩, hd, h1⟩ := bind_eq_ok.1 h0
    obtain ⟨_, h2⟩ := Prod.mk.inj (Except.ok.inj h1)
    simp only at h2
    subst h2
    obtain ⟨s, hs, seed', s', hd⟩ := dwsr_state hd
    have hs : s ∈ Spec.states r := by
      unfold World.loadSession at hs
      rw [hr] at hs
      exact hs
    have hv : versionOf s = 2 := by
      have := (SessionCipher.dwss_ok hd).2.1
      rw [versionOf_eq, hm] at this
      exact this.symm
    obtain ⟨ck, mk, iv, rid, lid, g1, g4, g5, g6⟩ := dwss_keys2 hC hd hv
    rw [g4] at g5
    obtain ⟨body, mac, f1, f2, f3⟩ := verifyMac_ok2 hC.hmac_len g5
    rw [parse_serialized hp] at f1
    exact ⟨s, hs, ck, mk, iv, body, mac, hv, g1, g6, f1, f2, f3⟩

/-- **C79**, versions do not mix: a message is only ever decrypted by a stored state of the message's own version, and this is
version 2 or 3. -/
theorem C79_versions (w : World) (a : Address) (r : SessionRecord) (hr : w.sessions a = some r) (m : WhisperMessage)
    (seed : Bytes) (seeds : Nat → Bytes) (pt : Bytes) (h : (SessionCipher.decryptMsg w a m seed seeds).result = .ok pt) :
    (∃ s ∈ Spec.states r, versionOf s = m.messageVersion) ∧ (m.messageVersion = 2 ∨ m.messageVersion = 3) := by
  have h0 := Outcome.ofRes_ok h
  split at h0
  · cases h0
  · obtain ⟨⟨pt', r'⟩, hd, h1⟩ := bind_eq_ok.1 h0
    obtain ⟨s, hs, seed', s', hd⟩ := dwsr_state hd
    have hs : s ∈ Spec.states r := by
      unfold World.loadSession at hs
      rw [hr] at hs
      exact hs
    obtain ⟨_, hver, ck, s1, _, _, _, _, g1, _⟩ := SessionCipher.dwss_ok hd
    have hk : ∃ kdf, Kdf.createFor (getSessionVersion s) = .ok kdf := by
      rcases SessionCipher.gocck_ok g1 with ⟨_, _, kdf, _, g, _⟩ | ⟨kdf, _, _, _, _, _, g, _⟩
      · exact ⟨kdf, g⟩
      · exact ⟨kdf, g⟩
    rw [← hver] at hk
    refine ⟨⟨s, hs, ?_⟩, ?_⟩
    · rw [hver, versionOf_eq]
    · obtain ⟨kdf, hk⟩ := hk
      unfold Kdf.createFor at hk
      split at hk
      · left; assumption
      · split at hk
        · right; assumption
        · cases hk

/-- **C79**, other versions: in a session of any other version `encrypt` raises `AssertionError` and stores nothing. -/
theorem C79_other_versions (w : World) (a : Address) (pt : Bytes) (h2 : versionOf (w.loadSession a).sessionState ≠ 2)
    (h3 : versionOf (w.loadSession a).sessionState ≠ 3) :
    SessionCipher.encrypt w a pt = ⟨[], .error .assertionError⟩ := by
  unfold SessionCipher.encrypt
  have e : ∀ {s : SessionState}, versionOf s ≠ 2 → versionOf s ≠ 3 → getSenderChainKey s = .error .assertionError := by
    intro s h2 h3
    unfold getSenderChainKey Kdf.createFor
    rw [versionOf_eq, if_neg h2, if_neg h3]
    rfl
  unfold SessionCipher.encryptWithState
  simp only
  rw [e h2 h3]
  rfl

/-- The result of `decryptMsg` is the plaintext part of the record's answer. -/
theorem decryptMsg_record {w : World} {a : Address} (hr : w.containsSession a = true) (m : WhisperMessage)
    (seed : Bytes) (seeds : Nat → Bytes) :
    (SessionCipher.decryptMsg w a m seed seeds).result =
      (SessionCipher.decryptWithSessionRecord (w.loadSession a) m seed seeds).map Prod.fst := by
  unfold SessionCipher.decryptMsg
  rw [hr]
  simp only [Bool.not_true, Bool.false_eq_true, if_false]
  cases SessionCipher.decryptWithSessionRecord (w.loadSession a) m seed seeds <;> rfl

/-- **C79**, identities: what `decryptMsg` returns from version-2 states does not depend on whose identities are stored in them.
So a version-2 message does not prove which identities the two sides believe in; a version-3 message does (C34). -/
theorem C79_unbound (w : World) (a : Address) (r : SessionRecord) (hr : w.sessions a = some r)
    (h : ∀ s ∈ Spec.states r, versionOf s = 2 ∧ (∃ x, KeyOf s.localIdentityPublic x) ∧ ∃ y, KeyOf s.remoteIdentityPublic y)
    (me you : ECPub) (m : WhisperMessage) (seed : Bytes) (seeds : Nat → Bytes) :
    (SessionCipher.decryptMsg { w with sessions := upd w.sessions a (some (rebindAll me you r)) } a m seed seeds).result =
      (SessionCipher.decryptMsg w a m seed seeds).result := by
  have e3 : World.loadSession { w with sessions := upd w.sessions a (some (rebindAll me you r)) } a =
      rebindAll me you { r with fresh := false } := by
    unfold World.loadSession; simp [upd, rebindAll]
  have e4 : World.loadSession w a = { r with fresh := false } := by unfold World.loadSession; rw [hr]
  have e5 : World.containsSession { w with sessions := upd w.sessions a (some (rebindAll me you r)) } a = true := by
    unfold World.containsSession; simp [upd]
  have e6 : World.containsSession w a = true := by unfold World.containsSession; rw [hr]; rfl
  rw [decryptMsg_record e5, decryptMsg_record e6, e3, e4]
  exact rebind_dwsr me you m seed seeds h

/-- **C79**, setup: if the setup message of a version-2 session is still outstanding, `encrypt` makes a prekey message that no
reader accepts. -/
theorem C79_setup_lost (w : World) (a : Address) (pt : Bytes) (c : Ciphertext)
    (h : (SessionCipher.encrypt w a pt).result = .ok c) (hv : versionOf (w.loadSession a).sessionState = 2)
    (hp : (w.loadSession a).sessionState.pendingPreKey.isSome) :
    c.getType = 3 ∧ PreKeyWhisperMessage.parse c.serialize = .error .invalidMessage := by
  unfold SessionCipher.encrypt at h
  have h := Outcome.ofRes_ok h
  simp only at h
  generalize (w.loadSession a).sessionState = s at h hv hp
  obtain ⟨⟨c', s'⟩, he, h⟩ := bind_eq_ok.1 h
  obtain ⟨_, rfl⟩ := Prod.mk.inj (Except.ok.inj h)
  obtain ⟨kdf, eph, ct, lid, rid, m, h1, h2, h3, h4, h5, h6, h7, h8, h9, h10, _⟩ := SessionCipher.ews_ok he
  obtain ⟨items, pm, g1, g2, rfl⟩ := h10 hp
  rw [versionOf_eq, hv] at g2
  obtain ⟨g3, _⟩ := pkCreate_serialized g2
  refine ⟨rfl, ?_⟩
  show PreKeyWhisperMessage.parse pm.serialized = _
  rw [g3]
  rfl

/-! ## Moving on to version 3 -/

theorem tryPrevious_shift {r r' : SessionRecord} (m : WhisperMessage) {seeds seeds' : Nat → Bytes} (hC : C.Lawful)
    (h : ∀ i, (seeds i).length = 32) (h' : ∀ i, (seeds' i).length = 32) : ∀ (l : List SessionState) (i j : Nat),
    (SessionCipher.tryPrevious r m seeds l i).map Prod.fst = (SessionCipher.tryPrevious r' m seeds' l j).map Prod.fst := by
  intro l
  induction l with
  | nil => intros; rfl
  | cons p l ih =>
    intro i j
    have := dwss_seed hC p m (h i) (h' j)
    unfold SessionCipher.tryPrevious
    cases h1 : SessionCipher.decryptWithSessionState p m (seeds i) with
    | error e =>
      cases h2 : SessionCipher.decryptWithSessionState p m (seeds' j) with
      | error e' =>
        rw [h1, h2] at this
        have he : e = e' := by simpa [Except.map] using this
        subst he
        cases e <;> first | exact ih (i + 1) (j + 1) | rfl
      | ok x => rw [h1, h2] at this; cases this
    | ok x =>
      cases h2 : SessionCipher.decryptWithSessionState p m (seeds' j) with
      | error e' => rw [h1, h2] at this; cases this
      | ok y => rw [h1, h2] at this; exact this

theorem bundle_version {w : World} {a : Address} {b : PreKeyBundle} {bs rs : Bytes}
    (h : (SessionBuilder.processPreKeyBundle w a b bs rs).result = .ok ()) :
    ∃ s, ((SessionBuilder.processPreKeyBundle w a b bs rs).final w).sessions a =
      some ((SessionBuilder.archiveUnlessFresh (w.loadSession a)).setState s) ∧ s.sessionVersion = some 3 := by
  have hx : ∃ x, x ∈ (SessionBuilder.processPreKeyBundle w a b bs rs).writes := by
    unfold SessionBuilder.processPreKeyBundle at h ⊢
    refine ofRes_some_write ?_ h
    intro ws c h0
    split at h0
    · cases h0
    · split at h0
      · cases h0
      · obtain ⟨ok, hok, h1⟩ := bind_eq_ok.1 h0
        split at h1
        · cases h1
        · obtain ⟨s0, h3, h1⟩ := bind_eq_ok.1 h1
          obtain ⟨s1, h4, h1⟩ := bind_eq_ok.1 h1
          obtain ⟨s2, h5, h1⟩ := bind_eq_ok.1 h1
          obtain ⟨s3, h6, h1⟩ := bind_eq_ok.1 h1
          replace h1 := Except.ok.inj h1
          injection h1 with h1 h1'
          rw [← h1]
          exact ⟨_, List.mem_cons_self ..⟩
  obtain ⟨x, hx⟩ := hx
  obtain ⟨_, k, s0, s1, s2, s3, _, _, h1, h2, h3, h4, h5, _⟩ := processPreKeyBundle_writes hx
  refine ⟨setAliceBaseKey s3 (Curve.serializePoint (Curve.generateKeyPair bs).pub), by
    unfold Outcome.final; rw [h5]; simp [World.applyAll, World.apply, upd], ?_⟩
  exact (created_shape (.alice h1 h2 h3 h4)).1

/-- **C79**, renewal: after a bundle has been processed over a version-2 session (fewer than 40 states being kept), messages of
version 2 are treated exactly as before. -/
theorem C79_renewal (hC : C.Lawful) (w : World) (a : Address) (r : SessionRecord) (hr : w.sessions a = some r)
    (hl : r.previousStates.length < 40) (b : PreKeyBundle) (bs rs : Bytes)
    (h : (SessionBuilder.processPreKeyBundle w a b bs rs).result = .ok ()) (m : WhisperMessage) (hm : m.messageVersion = 2)
    {seed seed' : Bytes} {seeds seeds' : Nat → Bytes} (h2 : seed'.length = 32)
    (h3 : ∀ i, (seeds i).length = 32) (h4 : ∀ i, (seeds' i).length = 32) :
    (SessionCipher.decryptMsg ((SessionBuilder.processPreKeyBundle w a b bs rs).final w) a m seed seeds).result =
      (SessionCipher.decryptMsg w a m seed' seeds').result := by
  obtain ⟨s, e1, e2⟩ := bundle_version h
  have e3 : World.containsSession ((SessionBuilder.processPreKeyBundle w a b bs rs).final w) a = true := by
    unfold World.containsSession; rw [e1]; rfl
  have e3' : World.containsSession w a = true := by unfold World.containsSession; rw [hr]; rfl
  have e4 : World.loadSession w a = { r with fresh := false } := by unfold World.loadSession; rw [hr]
  have e5 : SessionBuilder.archiveUnlessFresh { r with fresh := false } =
      { fresh := false, sessionState := {}, previousStates := r.sessionState :: r.previousStates } := by
    unfold SessionBuilder.archiveUnlessFresh SessionRecord.archiveCurrentState SessionRecord.promoteState
    simp only [Bool.not_false, if_true, List.length_cons, SessionRecord.ARCHIVED_STATES_MAX_LENGTH]
    have : ¬ (r.previousStates.length + 1 > 40) := by omega
    simp only [this, if_false]
  have e7 : World.loadSession ((SessionBuilder.processPreKeyBundle w a b bs rs).final w) a =
      { fresh := false, sessionState := s, previousStates := r.sessionState :: r.previousStates } := by
    unfold World.loadSession; rw [e1, e4, e5]; rfl
  rw [decryptMsg_record e3, decryptMsg_record e3', e4, e7]
  have e6 : SessionCipher.decryptWithSessionState s m seed = .error .invalidMessage := by
    unfold SessionCipher.decryptWithSessionState
    split
    · rfl
    · rw [if_pos]
      rw [hm, getSessionVersion_three.2 e2]
      decide
  unfold SessionCipher.decryptWithSessionRecord
  simp only
  simp only [e6]
  have := dwss_seed hC r.sessionState m (h3 0) h2
  conv => lhs; unfold SessionCipher.tryPrevious
  cases h5 : SessionCipher.decryptWithSessionState r.sessionState m (seeds 0) with
  | error e =>
    cases h6 : SessionCipher.decryptWithSessionState r.sessionState m seed' with
    | error e' =>
      rw [h5, h6] at this
      have he : e = e' := by simpa [Except.map] using this
      subst he
      cases e <;> first | rfl | exact tryPrevious_shift m hC h3 h4 r.previousStates (0 + 1) 0
    | ok x => rw [h5, h6] at this; cases this
  | ok x =>
    cases h6 : SessionCipher.decryptWithSessionState r.sessionState m seed' with
    | error e' => rw [h5, h6] at this; cases this
    | ok y => rw [h5, h6] at this; exact this

end

/-! ## Cases meeting the hypotheses -/

section
attribute [local instance] toy
open Example Spec

/-- The two ends of a version-2 session: Bob's state carries no version at all, Alice's the number 2. -/
def old2Bob : SessionRecord :=
  { fresh := false
    sessionState :=
      { localIdentityPublic := some (5 :: key 2), remoteIdentityPublic := some (5 :: key 1), rootKey := some (key 61)
        senderChain := some (freshChain (pair 22).pub (some (pair 22).priv) (key 62)) } }

def old2Secret : Bytes := (toy.dh (toy.genPriv (key 42)) (pair 22).pub).getD []

def old2Alice : SessionRecord :=
  { fresh := false
    sessionState :=
      { sessionVersion := some 2
        localIdentityPublic := some (5 :: key 1), remoteIdentityPublic := some (5 :: key 2)
        rootKey := some (ratchetRoot2 (key 61) old2Secret)
        senderChain := some (freshChain (toy.genPub (toy.genPriv (key 42))) (some (toy.genPriv (key 42)))
          (ratchetChain2 (key 61) old2Secret))
        receiverChains := [freshChain (pair 22).pub none (key 62)] } }

def old2WA : World := { alice0 with sessions := fun a => if a = bobAddr then some old2Alice else none }
def old2WB : World := { bob0 with sessions := fun a => if a = aliceAddr then some old2Bob else none }

def old2Cv : Conv :=
  { addr := fun s => if s then bobAddr else aliceAddr, start := fun s => if s then [(pair 22).pub] else [],
    waits := false, preKeyId := none }
def old2Net : Net :=
  { world := fun s => if s then old2WA else old2WB, sent := fun _ => [], accepted := fun _ => [],
    keys := [(pair 22).pub, toy.genPub (toy.genPriv (key 42))] }

theorem old2_start : Start2 old2Cv old2Net :=
  Start2.mk (wA := old2WA) (wB := old2WB) (ab := bobAddr) (ba := aliceAddr) (rA := old2Alice) (rB := old2Bob)
    (idA := key 1) (idB := key 2) (kp := pair 22) (seed := key 42) (root := key 61) (chain := key 62)
    (secret := old2Secret) rfl rfl ⟨rfl, rfl, rfl, rfl, by decide⟩ ⟨rfl, rfl, rfl, rfl, by decide⟩ rfl rfl
    ⟨rfl, rfl, rfl, key 22, rfl⟩ rfl (by decide +kernel) rfl rfl rfl rfl rfl rfl (by decide +kernel)

/-- Bob writes twice, the second message arrives, twice; Alice answers twice, the second answer arrives; Bob answers that. -/
def old2Run : Option Net :=
  ((convSend old2Cv old2Net false [104, 105]).bind fun n => (convSend old2Cv n false [104, 111]).bind fun n =>
    (convDeliver old2Cv n true 1 (key 51)).bind fun n => (convDeliver old2Cv n true 1 (key 52)).bind fun n =>
    (convSend old2Cv n true [121, 111]).bind fun n => (convSend old2Cv n true [121, 121]).bind fun n =>
    convDeliver old2Cv n false 1 (key 53))

theorem old2Run_steps {n : Net} (h : old2Run = some n) : Steps old2Cv old2Net n := by
  unfold old2Run at h
  simp only [Option.bind_eq_some_iff] at h
  obtain ⟨a1, h1, a2, h2, a3, h3, a4, h4, a5, h5, a6, h6, h7⟩ := h
  exact ((((((Steps.refl.step (convSend_step h1)).step (convSend_step h2)).step (convDeliver_step h3)).step
    (convDeliver_step h4)).step (convSend_step h5)).step (convSend_step h6)).step (convDeliver_step h7)

/-- The first message of either side is new to the other and within the limits, the second is accepted and remembered; all
messages carry version byte 0x23. -/
def old2Check (n : Net) : Bool :=
  n.accepted false == [1] && n.accepted true == [1] &&
  [false, true].all fun b =>
    ((n.sent (!b))[0]?.any fun m => decide (n.inLimits old2Cv b (header m.1)) && m.1.serialize.take 1 == [0x23]) &&
    ((n.sent (!b))[1]?.any fun m => decide (n.remembered old2Cv b (header m.1))) &&
    decide (toy.genPub (toy.genPriv (key 54)) ∉ n.keys)

theorem old2Run_check : old2Run.any old2Check = true := by decide +kernel

/-- The hypotheses of `C79_conversation`, `C79_can_send` and `C79_headers_distinct` are met. -/
example : ∃ n, Start2 old2Cv old2Net ∧ Steps old2Cv old2Net n ∧ old2Check n = true := by
  have h := old2Run_check
  cases hr : old2Run with
  | none => rw [hr] at h; cases h
  | some n => rw [hr] at h; exact ⟨n, old2_start, old2Run_steps hr, h⟩

def old2Sent : Outcome Ciphertext := SessionCipher.encrypt old2WB aliceAddr [104, 105]
def old2Msg : WhisperMessage := match old2Sent.result with | .ok c => c.inner | .error _ => noMessage

/-- `C79_encrypt`, `C79_decrypt`, `C79_versions`: Bob's message, read by Alice. -/
example : old2Sent.result.toOption.isSome ∧ versionOf (old2WB.loadSession aliceAddr).sessionState = 2 ∧
    (old2WB.loadSession aliceAddr).sessionState.pendingPreKey = none ∧
    (WhisperMessage.parse old2Msg.serialized).toOption = some old2Msg ∧ old2Msg.messageVersion = 2 ∧
    (SessionCipher.decryptMsg old2WA bobAddr old2Msg (key 43) (fun _ => key 44)).result = .ok [104, 105] := by
  decide +kernel

/-- `C79_unbound`: Alice still reads it when her state names two strangers instead. -/
example : (∀ s ∈ Spec.states old2Alice, versionOf s = 2 ∧ (∃ x, KeyOf s.localIdentityPublic x) ∧
      ∃ y, KeyOf s.remoteIdentityPublic y) ∧
    (SessionCipher.decryptMsg { old2WA with sessions := upd old2WA.sessions bobAddr (some (rebindAll (key 8) (key 9) old2Alice)) }
      bobAddr old2Msg (key 43) (fun _ => key 44)).result = .ok [104, 105] := by
  refine ⟨?_, by decide +kernel⟩
  intro s hs
  obtain rfl := List.mem_singleton.1 hs
  exact ⟨rfl, ⟨key 1, key 1, rfl, rfl⟩, ⟨key 2, key 2, rfl, rfl⟩⟩

/-- `C79_setup_lost`: Alice's state with the setup message outstanding. -/
example : let w := { old2WA with sessions := fun _ => some { old2Alice with sessionState :=
        { old2Alice.sessionState with pendingPreKey := some { preKeyId := some 31, signedPreKeyId := some 22, baseKey := some (5 :: key 41) } } } }
    (SessionCipher.encrypt w bobAddr [1]).result.toOption.isSome ∧ versionOf (w.loadSession bobAddr).sessionState = 2 ∧
    (w.loadSession bobAddr).sessionState.pendingPreKey.isSome := by decide +kernel

/-- `C79_other_versions`: a state of version 4. -/
example : versionOf ((({ old2WA with sessions := fun _ => some { old2Alice with sessionState :=
    { old2Alice.sessionState with sessionVersion := some 4 } } } : World).loadSession bobAddr).sessionState) = 4 := by decide +kernel

/-- `C79_renewal`: Alice processes Bob's bundle and can still read the message. -/
example : (SessionBuilder.processPreKeyBundle old2WA bobAddr bobBundle (key 41) (key 45)).result = .ok () ∧
    old2WA.sessions bobAddr = some old2Alice ∧ old2Alice.previousStates.length < 40 ∧
    (SessionCipher.decryptMsg ((SessionBuilder.processPreKeyBundle old2WA bobAddr bobBundle (key 41) (key 45)).final old2WA)
      bobAddr old2Msg (key 43) (fun _ => key 44)).result = .ok [104, 105] := by decide +kernel

end
end Axolotl
