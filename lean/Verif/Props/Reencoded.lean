import Verif.Props.Rewrapped
import Verif.Props.Randomness
import Verif.Props.Setup
import Verif.Props.Pinning
import Verif.Proofs.Live
import Verif.Real.Instance

/-!
# C85: the same base key written in another way

X25519 ignores the highest bit of a public key.  The library remembers which base keys it has seen as bytes.
-/

namespace Axolotl
section
variable [C : Crypto]
open SessionState SessionBuilder RatchetingSession
open Spec (ofBase statesAt)

theorem created_sane (hC : C.Lawful) {s : SessionState} (h : Created s) : Sane s :=
  have h1 := (keySizes_inv hC).created s h
  ⟨(goodChains_inv hC).created s h, senderKey_inv.created s h, h1.1, h1.2.1, identities_inv.created s h, h1.2.2⟩

/-- Whether a state accepts a message does not depend on the base key remembered in it. -/
theorem accepts_base {s s' : SessionState} {m : WhisperMessage} {seed pt : Bytes} (h : Spec.Accepts s m seed pt s') (k : Bytes) :
    Spec.Accepts (setAliceBaseKey s k) m seed pt (setAliceBaseKey s' k) := by
  cases h with
  | intro h1 h2 h3 h4 h5 h6 h7 h8 h9 h10 h11 h12 =>
    cases h3 with
    | known g1 g2 => exact .intro (s1 := setAliceBaseKey s k) h1 h2 (.known g1 g2) h4 h5 h6 h7 h8 h9 h10 h11 h12
    | ratchet g1 g2 g3 g4 =>
      exact .intro (s := setAliceBaseKey s k) h1 h2 (.ratchet (s := setAliceBaseKey s k) g1 g2 g3 g4) h4 h5 h6 h7 h8 h9 h10 h11 h12

theorem bobSecrets_same {p : BobParameters} {k : ECPub} (h : ∀ a, C.dh a p.theirBaseKey = C.dh a k) :
    bobSecrets { p with theirBaseKey := k } = bobSecrets p := by
  unfold bobSecrets Curve.calculateAgreement
  simp only [h]

/-- The prekeys and the identity that a prekey message refers to are the same in two stores. -/
structure Spec.SameKeys (w w' : World) (m : PreKeyWhisperMessage) : Prop where
  identity : w'.identityKeyPair = w.identityKeyPair
  registration : w'.registrationId = w.registrationId
  signed : w'.signedPreKeys m.signedPreKeyId = w.signedPreKeys m.signedPreKeyId
  oneTime : ∀ i, m.preKeyId = some i → w'.preKeys i = w.preKeys i

/-- **C85.** A first message has been accepted.  The same message with its base key replaced by another one that has the same
agreements with all private keys is accepted again, with the same plaintext, in every later store that still has the prekeys and
does not remember the new bytes. -/
theorem C85_again (hC : C.Lawful) (w : World) (a : Address) (hnone : w.sessions a = none) (m : PreKeyWhisperMessage) (k : ECPub)
    (hk : ∀ x, C.dh x m.baseKey = C.dh x k) {seed seed' : Bytes} {seeds seeds' : Nat → Bytes} (hs : seed.length = 32)
    (hs' : seed'.length = 32) {pt : Bytes} (hacc : (SessionCipher.decryptPkmsg w a m seed seeds).result = .ok pt)
    (w' : World) (hw : Spec.SameKeys w w' m) (ht : w'.isTrusted a.1 m.identityKey = true)
    (hnew : ¬ Spec.alreadyKnown w' a { m with baseKey := k }) :
    (SessionCipher.decryptPkmsg w' a { m with baseKey := k } seed' seeds').result = .ok pt := by
  have hload : w.loadSession a = {} := by unfold World.loadSession; rw [hnone]
  rcases decryptPkmsg_cases w a m seed seeds with
    ⟨_, h⟩ | ⟨_, ⟨e, _, h⟩ | ⟨r, u, e, hv, hd, h⟩ | ⟨r, u, pt1, r2, hv, hd, h⟩⟩
  · rw [h] at hacc; cases hacc
  · rw [h] at hacc; cases hacc
  · rw [h] at hacc; cases hacc
  rw [h] at hacc
  obtain rfl : pt1 = pt := Except.ok.inj hacc
  rcases processV3_ok hv with ⟨hkn, _⟩ | ⟨_, spk, kp, ot, s0, s1, s2, e1, e2, e3, e4, q1, q2, q3, q4, q5⟩
  · obtain ⟨r', h1, _⟩ := (loaded_known w a m).1 hkn
    rw [hnone] at h1; cases h1
  simp only at q4
  have hempty : (archiveUnlessFresh (w.loadSession a)).sessionState = {} := archive_load_state w a
  rw [hempty] at q1
  -- the state of the first time
  have hst : r.sessionState = setAliceBaseKey s2 (Curve.serializePoint m.baseKey) := by rw [q4]; rfl
  have hprev : r.previousStates = [] := by
    rw [q4, hload]
    rfl
  obtain ⟨s', hd'⟩ : ∃ s', SessionCipher.decryptWithSessionState r.sessionState m.message seed = .ok (pt1, s') := by
    rcases dwsr_ok hd with ⟨s', g, _⟩ | ⟨_, j, p, s', hp, _⟩
    · exact ⟨s', g⟩
    · rw [hprev] at hp; cases hp
  -- the state of the second time
  have q1' : initializeSessionAsBob {}
      { theirBaseKey := k, theirIdentityKey := m.identityKey, ourIdentityKey := w.identityKeyPair, ourSignedPreKey := kp,
        ourRatchetKey := kp, ourOneTimePreKey := ot } = .ok s0 := by
    rw [← q1]
    unfold initializeSessionAsBob
    rw [← bobSecrets_same (k := k) (p := ⟨w.identityKeyPair, kp, kp, ot, m.identityKey, m.baseKey⟩) hk]
  have hc : Created (setAliceBaseKey s2 (Curve.serializePoint m.baseKey)) := .bob q1 q2 q3
  have hc' : Created (setAliceBaseKey s2 (Curve.serializePoint k)) := .bob q1' q2 q3
  rw [hst] at hd'
  have hs1 := created_sane hC hc
  obtain ⟨s'', hd''⟩ : ∃ s'', SessionCipher.decryptWithSessionState (setAliceBaseKey s2 (Curve.serializePoint m.baseKey)) m.message
      seed' = .ok (pt1, s'') := map_fst_ok (dwss_seed hC _ _ hs hs') hd'
  have hA := accepts_of_dwss hC (hs1.version (SessionCipher.dwss_ok hd'').1) hs1.five hd''
  have hA' := accepts_base hA (Curve.serializePoint k)
  have hd3 := (verdict_iff hC (created_sane hC hc') m.message seed' _).1 (.plaintext hA')
  -- the call
  have hv' : ∃ u', processV3 w' (w'.loadSession a) { m with baseKey := k } =
      .ok ((archiveUnlessFresh (w'.loadSession a)).setState (setAliceBaseKey s2 (Curve.serializePoint k)), u') := by
    have hk' : (w'.loadSession a).hasSessionState m.version (Curve.serializePoint k) = false := by
      cases hx : (w'.loadSession a).hasSessionState m.version (Curve.serializePoint k) with
      | false => rfl
      | true => exact absurd ((loaded_known w' a { m with baseKey := k }).1 hx) hnew
    have l1 : w'.loadSignedPreKey m.signedPreKeyId = .ok spk := by
      rw [← e1]
      unfold World.loadSignedPreKey
      rw [hw.signed]
    have l2 : ∀ i, m.preKeyId = some i → w'.loadPreKey i = w.loadPreKey i := by
      intro i hi
      unfold World.loadPreKey
      rw [hw.oneTime i hi]
    unfold processV3
    simp only
    rw [hk', if_neg (by simp), l1, ok_bind, e2, ok_bind, hw.identity, hw.registration]
    rw [archive_load_state w' a]
    cases hp : m.preKeyId with
    | none =>
      obtain rfl := e3 hp
      simp only [ok_bind]
      rw [q1', ok_bind, q2, ok_bind, q3, ok_bind]
      exact ⟨_, rfl⟩
    | some i =>
      obtain ⟨pk, kk, g1, g2, rfl⟩ := e4 i hp
      simp only [l2 i hp, g1, g2, ok_bind]
      rw [q1', ok_bind, q2, ok_bind, q3, ok_bind]
      exact ⟨_, rfl⟩
  obtain ⟨u', hv'⟩ := hv'
  rw [pkmsg_eq (m := { m with baseKey := k }) ht hv', dwsr_forward seeds' hd3]

theorem dwss_base {s s' : SessionState} {m : WhisperMessage} {seed pt : Bytes}
    (h : SessionCipher.decryptWithSessionState s m seed = .ok (pt, s')) : s'.aliceBaseKey = s.aliceBaseKey :=
  (dwss_same h).1.2.2.2.1

/-- Accepting a first message from an address without a session leaves one state, with the base key of the message. -/
theorem after_first (w : World) (a : Address) (hnone : w.sessions a = none) (m : PreKeyWhisperMessage) {seed : Bytes}
    {seeds : Nat → Bytes} {pt : Bytes} (hacc : (SessionCipher.decryptPkmsg w a m seed seeds).result = .ok pt) :
    ∃ r, ((SessionCipher.decryptPkmsg w a m seed seeds).final w).sessions a = some r ∧ r.previousStates = [] ∧
      r.sessionState.aliceBaseKey = some (5 :: m.baseKey) := by
  have hload : w.loadSession a = {} := by unfold World.loadSession; rw [hnone]
  rcases decryptPkmsg_cases w a m seed seeds with
    ⟨_, h⟩ | ⟨_, ⟨e, _, h⟩ | ⟨r, u, e, hv, hd, h⟩ | ⟨r, u, pt1, r2, hv, hd, h⟩⟩
  · rw [h] at hacc; cases hacc
  · rw [h] at hacc; cases hacc
  · rw [h] at hacc; cases hacc
  have hfin : ((SessionCipher.decryptPkmsg w a m seed seeds).final w).sessions a = some r2 := by
    rw [h]
    unfold Outcome.final
    cases u <;> simp [World.applyAll, World.apply, upd]
  refine ⟨r2, hfin, ?_⟩
  have hk' : (w.loadSession a).hasSessionState m.version (Curve.serializePoint m.baseKey) = false := by
    cases hx : (w.loadSession a).hasSessionState m.version (Curve.serializePoint m.baseKey) with
    | false => rfl
    | true =>
      obtain ⟨r', h1, _⟩ := (loaded_known w a m).1 hx
      rw [hnone] at h1; cases h1
  obtain ⟨hp, hb⟩ := InUse.v3_base (by rw [hload]) (by rw [hload]) hk' hv
  rcases dwsr_ok hd with ⟨s', g, rfl⟩ | ⟨_, j, p, s', hp', _⟩
  · exact ⟨hp, (dwss_base g).trans hb⟩
  · rw [hp] at hp'; cases hp'

/-- **C85**, denial.  A first message that names an ordinary one-time prekey would be accepted.  If the message with the other base key
arrives first, then it is accepted in its place, and the one-time prekey is deleted; from then on the genuine message is refused. -/
theorem C85_denial (hC : C.Lawful) (w : World) (a : Address) (hnone : w.sessions a = none) (m : PreKeyWhisperMessage) (k : ECPub)
    (hk : ∀ x, C.dh x m.baseKey = C.dh x k) (hne : k ≠ m.baseKey) {id : Nat} (hid : m.preKeyId = some id) (hord : id ≠ 0xFFFFFF)
    {seed seed' : Bytes} {seeds seeds' : Nat → Bytes} (hs : seed.length = 32)
    (hs' : seed'.length = 32) {pt : Bytes} (hacc : (SessionCipher.decryptPkmsg w a m seed seeds).result = .ok pt) :
    let o := SessionCipher.decryptPkmsg w a { m with baseKey := k } seed' seeds'
    o.result = .ok pt ∧ (o.final w).preKeys id = none ∧
    (∃ e, (SessionCipher.decryptPkmsg (o.final w) a m seed seeds).result = .error e) ∧
    (SessionCipher.decryptPkmsg (o.final w) a m seed seeds).writes = [] := by
  intro o
  have htr : w.isTrusted a.1 m.identityKey = true := by
    rcases decryptPkmsg_cases w a m seed seeds with ⟨_, h⟩ | ⟨h, _⟩
    · rw [h] at hacc; cases hacc
    · exact h
  have hnk : ¬ Spec.alreadyKnown w a { m with baseKey := k } := by
    rintro ⟨r, hr, _⟩
    rw [hnone] at hr
    cases hr
  have ho : o.result = .ok pt := C85_again hC w a hnone m k hk hs hs' hacc w ⟨rfl, rfl, rfl, fun _ _ => rfl⟩ htr hnk
  have hgone : (o.final w).preKeys id = none := by
    rcases C27_only_the_named w a { m with baseKey := k } seed' seeds' id with ⟨h, _⟩ | ⟨_, h⟩
    · exact h
    · exact absurd ⟨⟨pt, ho⟩, hnk, hid, hord⟩ h
  refine ⟨ho, hgone, C27_consumed_refused _ a m seed seeds id hid hgone ?_⟩
  rintro ⟨r, hr, s, hsm, _, hb⟩
  obtain ⟨r', hr', hp, hb'⟩ := after_first w a hnone { m with baseKey := k } ho
  have hrr : r' = r := Option.some.inj (hr'.symm.trans hr)
  subst hrr
  have hs1 : s = r'.sessionState := by
    rcases List.mem_cons.1 hsm with h | h
    · exact h
    · rw [hp] at h; cases h
  rw [hs1, hb'] at hb
  exact hne (List.cons.inj hb).2

/-- The last-resort prekey stays whatever is called. -/
theorem last_resort_stays (w : World) (c : Call) : (c.next w).preKeys 0xFFFFFF = w.preKeys 0xFFFFFF := by
  by_cases h : ∀ a m seed seeds, c ≠ .decryptPkmsg a m seed seeds
  · exact C27_other_calls w c h _
  · simp only [not_forall, not_not] at h
    obtain ⟨a, m, seed, seeds, rfl⟩ := h
    rcases C27_only_the_named w a m seed seeds 0xFFFFFF with ⟨_, _, _, _, h, _⟩ | ⟨h, _⟩
    · exact absurd rfl h
    · exact h

theorem same_after (m : PreKeyWhisperMessage) (hlast : ∀ i, m.preKeyId = some i → i = 0xFFFFFF) :
    ∀ (cs : List Call) (w : World), Spec.SameKeys w (Call.after w cs) m
  | [], _ => ⟨rfl, rfl, rfl, fun _ _ => rfl⟩
  | c :: cs, w => by
    have h := same_after m hlast cs (c.next w)
    obtain ⟨_, _, h1, h2, h3, _⟩ := C30_isolation w c
    refine ⟨h.identity.trans h2, h.registration.trans h3, h.signed.trans (by rw [h1]), ?_⟩
    intro i hi
    refine (h.oneTime i hi).trans ?_
    rw [hlast i hi]
    exact last_resort_stays w c

/-- **C85.** A first message that names no other one-time prekey than the last-resort one (which is never removed) has been accepted.
After any further calls, the message with its base key written in another way is accepted again with the same plaintext, while the
sender is trusted and the session with the new bytes is not there. -/
theorem C85_replay (hC : C.Lawful) (w : World) (a : Address) (hnone : w.sessions a = none) (m : PreKeyWhisperMessage) (k : ECPub)
    (hk : ∀ x, C.dh x m.baseKey = C.dh x k) (hlast : ∀ i, m.preKeyId = some i → i = 0xFFFFFF)
    {seed seed' : Bytes} {seeds seeds' : Nat → Bytes} (hs : seed.length = 32)
    (hs' : seed'.length = 32) {pt : Bytes} (hacc : (SessionCipher.decryptPkmsg w a m seed seeds).result = .ok pt) (cs : List Call)
    (ht : (Call.after w (.decryptPkmsg a m seed seeds :: cs)).isTrusted a.1 m.identityKey = true)
    (hnew : ¬ Spec.alreadyKnown (Call.after w (.decryptPkmsg a m seed seeds :: cs)) a { m with baseKey := k }) :
    (SessionCipher.decryptPkmsg (Call.after w (.decryptPkmsg a m seed seeds :: cs)) a { m with baseKey := k } seed' seeds').result
      = .ok pt :=
  C85_again hC w a hnone m k hk hs hs' hacc _ (same_after m hlast _ w) ht hnew

/-- What the first message that `encrypt` makes says when it is read. -/
theorem first_bytes (hC : C.Lawful) {wA wB : World} {ab ba : Address} {b : PreKeyBundle} {spkId : Nat} {spk : KeyPair}
    {otk : Option (Nat × KeyPair)} {baseSeed ratchetSeed bobSeed pt : Bytes}
    (h : Spec.FirstContact wA wB ab ba b spkId spk otk baseSeed ratchetSeed bobSeed pt) :
    ∃ p p', (SessionCipher.encrypt ((processPreKeyBundle wA ab b baseSeed ratchetSeed).final wA) ab pt).result = .ok (.preKey p) ∧
      PreKeyWhisperMessage.parse p.serialized = .ok p' ∧ p'.baseKey = C.genPub (C.genPriv baseSeed) ∧
      p'.identityKey = wA.identityKeyPair.pub := by
  obtain ⟨hA, hB, htA, htB, h1, h2, h3, hnew, hpt⟩ := h
  have hb := generate_good hC h1
  obtain ⟨secrets, s0, e1, e2, e3, e4, e5, e6⟩ := bundle_forward hC hA hB htA h1 h2
  have hy := nextEpoch_good hC (epoch0 spk secrets) h2
  have hAl := hA.identity.pub_len hC
  have hBl := hB.goodIdentity.pub_len hC
  have hok : PkHeader.Ok ⟨wA.registrationId.toNat, otk.map Prod.fst, spkId, (Curve.generateKeyPair baseSeed).pub⟩ := by
    refine ⟨?_, ?_, hB.signedRange, hb.pub_len hC⟩
    · have := hA.registration; show wA.registrationId.toNat < _; omega
    · cases otk with
      | none => exact fun _ h => by cases h
      | some o => intro i hi; injection hi with hi; subst hi; exact (hB.oneTimeStored o rfl).2.1
  obtain ⟨m, p, p', sA, g1, g2, _⟩ := send_prekey hC hAl hBl e3 hy (by decide) pt hpt hok e4
  refine ⟨p, p', ?_, g2.parse, g2.bk, g2.ik⟩
  rw [encrypt_forward (r := (archiveUnlessFresh (wA.loadSession ab)).setState s0)
    (by rw [e2]; simp [Outcome.final, World.applyAll, World.apply, upd]) g1]

/-- **C85.** The whole run: the recipient trusts on first use and has no session with the sender, the bundle has the last-resort
prekey.  The recipient reads the first message.  The same message with the base key written in another way is then accepted as a first
message again. -/
theorem C85_first_contact (hC : C.Lawful) {wA wB : World} {ab ba : Address} {b : PreKeyBundle} {spkId : Nat}
    {spk otk : KeyPair} {baseSeed ratchetSeed bobSeed pt : Bytes} (seeds : Nat → Bytes)
    (h : Spec.FirstContact wA wB ab ba b spkId spk (some (0xFFFFFF, otk)) baseSeed ratchetSeed bobSeed pt)
    (hnone : wB.sessions ba = none) (htofu : wB.policy = tofu) (k : ECPub) (hk : ∀ x, C.dh x (C.genPub (C.genPriv baseSeed)) = C.dh x k)
    (hne : k ≠ C.genPub (C.genPriv baseSeed)) :
    ∃ c p', let wA1 := (processPreKeyBundle wA ab b baseSeed ratchetSeed).final wA
      let o := SessionCipher.decryptPkmsg wB ba p' bobSeed seeds
      (SessionCipher.encrypt wA1 ab pt).result = .ok c ∧ PreKeyWhisperMessage.parse c.serialize = .ok p' ∧
      p'.baseKey = C.genPub (C.genPriv baseSeed) ∧ o.result = .ok pt ∧
      ∀ b' seed' seeds', seed'.length = 32 →
        (SessionCipher.decryptPkmsg (o.final wB) ba { p' with baseKey := k, serialized := b' } seed' seeds').result = .ok pt := by
  obtain ⟨c, p', h1, _, h3, h4, _, h6, h7⟩ := C13_first_contact_partial hC seeds h
  obtain ⟨q, q', g1, g2, g3, g4⟩ := first_bytes hC h
  rw [g1] at h1
  obtain rfl := Except.ok.inj h1
  have h3' : PreKeyWhisperMessage.parse q.serialized = .ok p' := h3
  rw [g2] at h3'
  obtain rfl := Except.ok.inj h3'
  refine ⟨.preKey q, q', g1, g2, g3, h4, ?_⟩
  intro b' seed' seeds' hs'
  have hsame : Spec.SameKeys wB ((SessionCipher.decryptPkmsg wB ba q' bobSeed seeds).final wB) q' := by
    obtain ⟨e1, e2, e3, _⟩ := applyAll_other (ws := (SessionCipher.decryptPkmsg wB ba q' bobSeed seeds).writes) (w := wB)
    refine ⟨e2, e3, congrFun e1 _, ?_⟩
    intro i _
    by_cases hi : i = 0xFFFFFF
    · subst hi
      rw [h6, if_pos rfl]
    · exact h7 i hi
  have hid : ((SessionCipher.decryptPkmsg wB ba q' bobSeed seeds).final wB).isTrusted ba.1 q'.identityKey = true := by
    rcases decryptPkmsg_cases wB ba q' bobSeed seeds with
      ⟨_, e⟩ | ⟨_, ⟨_, _, e⟩ | ⟨_, _, _, _, _, e⟩ | ⟨r, u, pt1, r2, _, _, e⟩⟩
    · rw [e] at h4; cases h4
    · rw [e] at h4; cases h4
    · rw [e] at h4; cases h4
    · rw [e]
      unfold Outcome.final World.isTrusted
      rw [(applyAll_other (w := wB)).2.2.2, htofu]
      cases u <;> simp [World.applyAll, World.apply, upd, tofu]
  obtain ⟨r, hr, hp, hb⟩ := after_first wB ba hnone q' h4
  have hres := C85_again hC wB ba hnone q' k (by rw [g3]; exact hk) h.seed3 hs' h4 _ hsame hid (seeds' := seeds') (by
    rintro ⟨r', hr', s, hsm, _, hs⟩
    rw [hr] at hr'
    obtain rfl := Option.some.inj hr'
    unfold Spec.states at hsm
    rw [hp] at hsm
    simp only [List.mem_cons, List.not_mem_nil, or_false] at hsm
    subst hsm
    rw [hb] at hs
    simp only [Option.getD_some, List.cons.injEq, true_and] at hs
    rw [g3] at hs
    exact hne hs.symm)
  exact hres

end

theorem getU32_lt {i : Nat} {fs : List Wire.Field} : (Wire.getU32 i fs).getD 0 < 2 ^ 32 := by
  unfold Wire.getU32
  cases (Wire.allVarint i fs).getLast? with
  | none => simp
  | some x => exact Nat.mod_lt _ (by decide)

theorem parsed_range {b : Bytes} {p : PreKeyWhisperMessageP} (h : parseWith PreKeyWhisperMessageP.ofFields b = .ok p) :
    p.registrationId.getD 0 < 2 ^ 32 ∧ p.preKeyId.getD 0 < 2 ^ 32 ∧ p.signedPreKeyId.getD 0 < 2 ^ 32 := by
  unfold parseWith at h
  split at h
  · cases h
  · simp only [PreKeyWhisperMessageP.ofFields] at h
    replace h := Except.ok.inj h
    subst h
    exact ⟨getU32_lt, getU32_lt, getU32_lt⟩

/-- The bytes of a message in which only the base key is different. -/
theorem C85_writable {b : Bytes} {m : PreKeyWhisperMessage} (hm : PreKeyWhisperMessage.parse b = .ok m)
    (hsz : m.message.serialized.length < 2 ^ 63) (hik : m.identityKey.length = 32) {k : ECPub} (hk : k.length = 32) :
    ∃ b', PreKeyWhisperMessage.parse b' = .ok { m with baseKey := k, serialized := b' } := by
  cases b with
  | nil => simp [PreKeyWhisperMessage.parse] at hm
  | cons v rest =>
    unfold PreKeyWhisperMessage.parse at hm
    rw [if_neg (by simp)] at hm
    have h := prekeyWrap_ok hm
    unfold PreKeyWhisperMessage.parseBody at h
    simp only at h
    split at h
    · cases h
    rename_i h1
    split at h
    · cases h
    rename_i h2
    obtain ⟨p, hp, h⟩ := bind_eq_ok.1 h
    split at h
    · cases h
    obtain ⟨bk, _, h⟩ := bind_eq_ok.1 h
    obtain ⟨ik, _, h⟩ := bind_eq_ok.1 h
    obtain ⟨inner, hw, h⟩ := bind_eq_ok.1 h
    injection h with h
    subst h
    have hv : ByteUtil.highBitsToInt v = 3 := by
      simp only [CiphertextMessage.CURRENT_VERSION] at *
      omega
    obtain ⟨l1, l2, l3⟩ := parsed_range hp
    have hser : inner.serialized = p.message.getD [] := parse_serialized hw
    obtain ⟨m', q1, q2, q3, q4, q5, q6, q7, q8, q9⟩ := C03_prekey_roundtrip_partial (p.registrationId.getD 0)
      (p.preKeyId.getD 0) (p.signedPreKeyId.getD 0) l1 l2 l3 k ik hk hik inner (by rw [hser]; exact hw) hsz
    refine ⟨m'.serialized, ?_⟩
    rw [q2]
    cases m'
    simp only at q3 q4 q5 q6 q7 q8 q9
    subst q3 q4 q5 q6 q7 q8 q9
    simp only [hv]

/-! ## With the primitives the library is used with -/

/-- The key with its highest bit changed. -/
def Spec.flipTop (k : Bytes) : Bytes := k.take 31 ++ (k.drop 31).map (· ^^^ 0x80)

theorem flipTop_eq {k : Bytes} (h : k.length = 32) : ∃ l c, l.length = 31 ∧ k = l ++ [c] ∧ Spec.flipTop k = l ++ [c ^^^ 0x80] := by
  refine ⟨k.take 31, k[31], by simp [h], ?_, ?_⟩
  · conv_lhs => rw [← List.take_append_drop 31 k]
    rw [List.drop_eq_getElem_cons (by omega), List.drop_of_length_le (by omega)]
  · unfold Spec.flipTop
    rw [List.drop_eq_getElem_cons (by omega), List.drop_of_length_le (by omega)]
    rfl

theorem beNat_acc (b : Bytes) (acc : Nat) : Real.beNat b acc = acc * 256 ^ b.length + Real.beNat b 0 := by
  induction b generalizing acc with
  | nil => simp [Real.beNat]
  | cons x b ih =>
    simp only [Real.beNat, Real.force_eq, List.length_cons]
    rw [ih (acc * 256 + x.toNat), ih (0 * 256 + x.toNat)]
    ring

theorem leNat_snoc (l : Bytes) (c : UInt8) : Real.leNat (l ++ [c]) = c.toNat * 256 ^ l.length + Real.leNat l := by
  unfold Real.leNat
  rw [List.reverse_append, List.reverse_singleton, List.singleton_append]
  simp only [Real.beNat, Real.force_eq]
  rw [beNat_acc]
  simp

theorem top_ne : ∀ c : UInt8, c ^^^ 0x80 ≠ c := by
  intro c h
  have h := congrArg UInt8.toBitVec h
  simp only [UInt8.toBitVec_xor] at h
  have h := congrArg (fun b => b ^^^ c.toBitVec) h
  simp only [BitVec.xor_self] at h
  rw [BitVec.xor_comm, ← BitVec.xor_assoc, BitVec.xor_self, BitVec.zero_xor] at h
  exact absurd h (by decide)

theorem top_mod (c : UInt8) : (c ^^^ 0x80).toNat % 128 = c.toNat % 128 := by
  rw [UInt8.toNat_xor]
  show (c.toNat ^^^ 2 ^ 7) % 2 ^ 7 = c.toNat % 2 ^ 7
  rw [Nat.xor_mod_two_pow]
  simp

/-- **C85.** X25519 takes no notice of the highest bit of a public key. -/
theorem C85_top_bit (k : ECPub) (h : k.length = 32) :
    (∀ x, real.dh x k = real.dh x (Spec.flipTop k)) ∧ Spec.flipTop k ≠ k ∧ (Spec.flipTop k).length = 32 := by
  obtain ⟨l, c, hl, rfl, h2⟩ := flipTop_eq h
  rw [h2]
  have hc : (c ^^^ 0x80) ≠ c := top_ne c
  have hm : (c ^^^ 0x80).toNat % 128 = c.toNat % 128 := top_mod c
  refine ⟨?_, by simp [hc], by simp [hl]⟩
  intro x
  show Real.X25519.dh _ _ = Real.X25519.dh _ _
  unfold Real.X25519.dh Real.X25519.donna Real.X25519.scalarMul
  simp only [List.length_append, List.length_singleton, Real.force_eq]
  have e : Real.leNat (l ++ [c]) % Real.top255 = Real.leNat (l ++ [c ^^^ 0x80]) % Real.top255 := by
    rw [leNat_snoc, leNat_snoc, hl]
    unfold Real.top255
    omega
  rw [e]

section
attribute [local instance] real

/-- **C85**, with the real primitives: the first message can be replayed by changing one bit of it, without any secret. -/
theorem C85_real {wA wB : World} {ab ba : Address} {b : PreKeyBundle} {spkId : Nat}
    {spk otk : KeyPair} {baseSeed ratchetSeed bobSeed pt : Bytes} (seeds : Nat → Bytes)
    (h : Spec.FirstContact wA wB ab ba b spkId spk (some (0xFFFFFF, otk)) baseSeed ratchetSeed bobSeed pt)
    (hnone : wB.sessions ba = none) (htofu : wB.policy = tofu) :
    ∃ c p', let wA1 := (SessionBuilder.processPreKeyBundle wA ab b baseSeed ratchetSeed).final wA
      let o := SessionCipher.decryptPkmsg wB ba p' bobSeed seeds
      (SessionCipher.encrypt wA1 ab pt).result = .ok c ∧ PreKeyWhisperMessage.parse c.serialize = .ok p' ∧
      o.result = .ok pt ∧
      ∀ b' seed' seeds', seed'.length = 32 →
        (SessionCipher.decryptPkmsg (o.final wB) ba { p' with baseKey := Spec.flipTop p'.baseKey, serialized := b' } seed'
          seeds').result = .ok pt := by
  obtain ⟨t1, t2, _⟩ := C85_top_bit (real.genPub (real.genPriv baseSeed))
    (real_lawful.genPub_len _ (real_lawful.genPriv_len _ h.seed1))
  obtain ⟨c, p', h1, h2, h3, h4, h5⟩ := C85_first_contact real_lawful seeds h hnone htofu _ t1 t2
  refine ⟨c, p', h1, h2, h4, ?_⟩
  rw [h3]
  exact h5

/-- **C85**, denial, with the real primitives: anybody who sees a first message can deliver it with the highest bit of the base key
changed, and the message itself is then refused. -/
theorem C85_denial_real (w : World) (a : Address) (hnone : w.sessions a = none) (m : PreKeyWhisperMessage) (hlen : m.baseKey.length = 32)
    {id : Nat} (hid : m.preKeyId = some id) (hord : id ≠ 0xFFFFFF) {seed seed' : Bytes} {seeds seeds' : Nat → Bytes}
    (hs : seed.length = 32) (hs' : seed'.length = 32) {pt : Bytes}
    (hacc : (SessionCipher.decryptPkmsg w a m seed seeds).result = .ok pt) :
    let o := SessionCipher.decryptPkmsg w a { m with baseKey := Spec.flipTop m.baseKey } seed' seeds'
    o.result = .ok pt ∧ (o.final w).preKeys id = none ∧
    (∃ e, (SessionCipher.decryptPkmsg (o.final w) a m seed seeds).result = .error e) ∧
    (SessionCipher.decryptPkmsg (o.final w) a m seed seeds).writes = [] := by
  obtain ⟨t1, t2, _⟩ := C85_top_bit m.baseKey hlen
  exact C85_denial real_lawful w a hnone m _ t1 t2 hid hord hs hs' hacc

/-! ### The hypotheses are met -/

def reSeed (n : UInt8) : Bytes := List.replicate 32 n
def rePair (n : UInt8) : KeyPair := Curve.generateKeyPair (reSeed n)

theorem rePair_good (n : UInt8) : Spec.GoodPair (rePair n) := generate_good real_lawful (by simp [reSeed])

def reSig : Bytes := (real.calcSig (List.replicate 64 7) (rePair 2).priv (5 :: (rePair 3).pub)).getD []

def reAlice : World :=
  { identityKeyPair := rePair 1, registrationId := 11, policy := tofu, identities := fun _ => none, sessions := fun _ => none,
    preKeys := fun _ => none, signedPreKeys := fun _ => none }

def reBobPreKey (id : Nat) : PreKeyRecord :=
  { id := some id, publicKey := some (5 :: (rePair 4).pub), privateKey := some (rePair 4).priv }

def reBob (id : Nat) : World :=
  { identityKeyPair := rePair 2, registrationId := 12, policy := tofu, identities := fun _ => none, sessions := fun _ => none,
    preKeys := fun i => if i = id then some (reBobPreKey id) else none,
    signedPreKeys := fun i => if i = 9 then
      some { id := some 9, publicKey := some (5 :: (rePair 3).pub), privateKey := some (rePair 3).priv } else none }

def reBundle (id : Nat) : PreKeyBundle :=
  { registrationId := 12, deviceId := 1, preKeyId := id, preKey := some (rePair 4).pub, signedPreKeyId := 9,
    signedPreKey := some (rePair 3).pub, signedPreKeySignature := reSig, identityKey := (rePair 2).pub }

theorem re_contact {id : Nat} (hid : id < 2 ^ 32) :
    Spec.FirstContact reAlice (reBob id) ("bob", 1) ("alice", 1) (reBundle id) 9 (rePair 3) (some (id, rePair 4))
    (reSeed 5) (reSeed 6) (reSeed 8) [104, 105] where
  self := ⟨rePair_good 1, by decide⟩
  published := by
    refine ⟨rfl, rePair_good 2, rfl, rfl, by decide, ⟨_, rfl, rfl, rfl⟩, rePair_good 3, ?_, rfl, ?_, rfl,
      (by show (0 : Int) ≤ 12 ∧ (12 : Int) < 2 ^ 32; decide)⟩
    · obtain ⟨s, h1, _, h3⟩ := real_lawful.sig_ok (List.replicate 64 7) (rePair 2).priv (5 :: (rePair 3).pub) (by simp) (rePair_good 2).drawn
      have e : reSig = s := by
        unfold reSig
        rw [h1]
        rfl
      have e' : (reBundle id).signedPreKeySignature = s := by simp only [reBundle, e]
      have e'' : (reBundle id).identityKey = real.genPub (rePair 2).priv := by simp only [reBundle]; exact (rePair_good 2).pub
      rw [e', e'']
      exact h3
    · intro p hp
      injection hp with hp
      subst hp
      exact ⟨rfl, hid, ⟨reBobPreKey id, by simp [reBob], rfl, rfl⟩, rePair_good 4⟩
  trustA := rfl
  trustB := rfl
  seed1 := by simp [reSeed]
  seed2 := by simp [reSeed]
  seed3 := by simp [reSeed]
  new := by intro r hr; cases hr
  size := by decide

example := C85_real (fun _ => reSeed 8) (re_contact (id := 0xFFFFFF) (by decide)) rfl rfl

/-- `C85_denial_real`: Alice's first message to Bob, who has the one-time prekey 7. -/
example : ∃ m : PreKeyWhisperMessage, m.baseKey.length = 32 ∧ m.preKeyId = some 7 ∧
    (SessionCipher.decryptPkmsg (reBob 7) ("alice", 1) m (reSeed 8) fun _ => reSeed 8).result = .ok [104, 105] := by
  have h := re_contact (id := 7) (by decide)
  obtain ⟨c, p', h1, h2, h3, h4, _, h6, h7⟩ := C13_first_contact_partial real_lawful (fun _ => reSeed 8) h
  obtain ⟨q, q', g1, g2, g3, g4⟩ := first_bytes real_lawful h
  rw [g1] at h1
  obtain rfl := Except.ok.inj h1
  have h3' : PreKeyWhisperMessage.parse q.serialized = .ok p' := h3
  rw [g2] at h3'
  obtain rfl := Except.ok.inj h3'
  refine ⟨q', ?_, ?_, h4⟩
  · rw [g3]
    exact real_lawful.genPub_len _ (real_lawful.genPriv_len _ h.seed1)
  · rw [if_neg (by decide)] at h6
    rcases C27_only_the_named (reBob 7) ("alice", 1) q' (reSeed 8) (fun _ => reSeed 8) 7 with ⟨_, _, _, hq, _⟩ | ⟨hq, _⟩
    · exact hq
    · rw [h6] at hq
      simp [reBob] at hq

end

end Axolotl
