import Verif.Proofs.Spine
import Verif.Spec.Setup

/-! Both sides of session setup arrive at matching states. -/

namespace Axolotl
section
variable [C : Crypto]
open SessionState SessionBuilder RatchetingSession
open Spec (GoodPair)

theorem Spec.GoodPair.pub_len {k : KeyPair} (h : GoodPair k) (hC : C.Lawful) : k.pub.length = 32 := by
  rw [h.pub]; exact hC.genPub_len _ h.priv

theorem generate_good (hC : C.Lawful) {seed : Bytes} (h : seed.length = 32) :
    GoodPair (Curve.generateKeyPair seed) := ⟨hC.genPriv_len _ h, rfl, hC.genPriv_len _ h, seed, rfl⟩

theorem agreement_comm (hC : C.Lawful) {a b : KeyPair} (ha : GoodPair a) (hb : GoodPair b) :
    ∃ s, C.dh a.priv b.pub = some s ∧ C.dh b.priv a.pub = some s := by
  obtain ⟨s, h1, h2⟩ := hC.dh_comm a.priv b.priv ha.priv hb.priv
  exact ⟨s, by rw [hb.pub]; exact h1, by rw [ha.pub]; exact h2⟩

theorem calc_of_dh {a b s : Bytes} (h : C.dh a b = some s) : Curve.calculateAgreement b a = .ok s := by
  unfold Curve.calculateAgreement; rw [h]

/-- Both sides compute the same secrets. -/
theorem secrets_agree (hC : C.Lawful) {A B base spk : KeyPair} {otk : Option KeyPair} (hA : GoodPair A)
    (hB : GoodPair B) (hb : GoodPair base) (hs : GoodPair spk) (ho : ∀ k, otk = some k → GoodPair k)
    (rk : ECPub) (rkp : KeyPair) :
    ∃ secrets,
      aliceSecrets { ourIdentityKey := A, ourBaseKey := base, theirIdentityKey := B.pub,
                     theirSignedPreKey := spk.pub, theirRatchetKey := rk,
                     theirOneTimePreKey := otk.map KeyPair.pub } = .ok secrets ∧
      bobSecrets { ourIdentityKey := B, ourSignedPreKey := spk, ourRatchetKey := rkp, ourOneTimePreKey := otk,
                   theirIdentityKey := A.pub, theirBaseKey := base.pub } = .ok secrets := by
  obtain ⟨s1, a1, b1⟩ := agreement_comm hC hA hs
  obtain ⟨s2, a2, b2⟩ := agreement_comm hC hb hB
  obtain ⟨s3, a3, b3⟩ := agreement_comm hC hb hs
  unfold aliceSecrets bobSecrets
  simp only
  rw [calc_of_dh a1, calc_of_dh a2, calc_of_dh a3, calc_of_dh b1, calc_of_dh b2, calc_of_dh b3]
  simp only [ok_bind]
  cases otk with
  | none => exact ⟨_, rfl, rfl⟩
  | some k =>
    obtain ⟨s4, a4, b4⟩ := agreement_comm hC hb (ho k rfl)
    simp only [Option.map_some]
    rw [calc_of_dh a4, calc_of_dh b4]
    exact ⟨_, rfl, rfl⟩

/-- The root key and the first chain key that the secrets give. -/
def setupRoot (secrets : Bytes) : Bytes := (calculateDerivedKeys secrets).1.key
def setupChain (secrets : Bytes) : Bytes := (calculateDerivedKeys secrets).2.key

/-- The answering side's first epoch. -/
def epoch0 (kp : KeyPair) (secrets : Bytes) : Epoch .v3 := ⟨kp.priv, kp.pub, setupRoot secrets, setupChain secrets⟩

/-- The epoch that follows `x` with the ratchet key generated from `seed`. -/
def nextEpoch {v : Kdf} (x : Epoch v) (seed : Bytes) : Epoch v :=
  let kp := Curve.generateKeyPair seed
  let sec := (C.dh kp.priv x.pub).getD []
  ⟨kp.priv, kp.pub, rootOf v x.root sec, chainOf v x.root sec⟩

theorem nextEpoch_good (hC : C.Lawful) {v : Kdf} (x : Epoch v) {seed : Bytes} (h : seed.length = 32) :
    (nextEpoch x seed).Good := ⟨hC.genPriv_len _ h, rfl⟩

theorem nextEpoch_next (hC : C.Lawful) {v : Kdf} {x : Epoch v} (hx : x.Good) {seed : Bytes} (h : seed.length = 32) :
    x.Next (nextEpoch x seed) := by
  obtain ⟨s, h1, h2⟩ := hC.dh_comm x.priv (C.genPriv seed) hx.priv (hC.genPriv_len _ h)
  have h3 : C.dh (Curve.generateKeyPair seed).priv x.pub = some s := by rw [hx.pub]; exact h2
  refine ⟨s, h1, h3, ?_, ?_⟩
  · show rootOf v x.root ((C.dh (Curve.generateKeyPair seed).priv x.pub).getD []) = _
    rw [h3]; rfl
  · show chainOf v x.root ((C.dh (Curve.generateKeyPair seed).priv x.pub).getD []) = _
    rw [h3]; rfl

/-- Alice's side of the setup. -/
theorem initAlice_forward (hC : C.Lawful) {p : AliceParameters} {secrets seed : Bytes} {rkp : KeyPair}
    (hsec : aliceSecrets p = .ok secrets) (hrk : p.theirRatchetKey = rkp.pub) (hr : GoodPair rkp)
    (hseed : seed.length = 32) :
    ∃ s, initializeSessionAsAlice {} p seed = .ok s ∧
      Party p.ourIdentityKey.pub p.theirIdentityKey (nextEpoch (epoch0 rkp secrets) seed) 0
        [⟨epoch0 rkp secrets, 0, []⟩] s ∧
      s = aliceState p (setupChain secrets) (Curve.generateKeyPair seed)
        (nextEpoch (epoch0 rkp secrets) seed).root (nextEpoch (epoch0 rkp secrets) seed).chain := by
  have hg : (epoch0 rkp secrets).Good := ⟨hr.priv, hr.pub⟩
  obtain ⟨sec, d1, d2, r1, c1⟩ := nextEpoch_next hC hg hseed
  have d2' : C.dh (Curve.generateKeyPair seed).priv p.theirRatchetKey = some sec := by rw [hrk]; exact d2
  have hcc : RootKey.createChain (calculateDerivedKeys secrets).1 p.theirRatchetKey (Curve.generateKeyPair seed) =
      .ok (⟨.v3, (nextEpoch (epoch0 rkp secrets) seed).root⟩,
           ⟨.v3, (nextEpoch (epoch0 rkp secrets) seed).chain, 0⟩) := by
    have : (calculateDerivedKeys secrets).1 = ⟨.v3, setupRoot secrets⟩ := rfl
    rw [this, createChain_v3 hC.hmac_len]
    simp only [d2']
    rw [r1, c1]
    rfl
  have hinit : initializeSessionAsAlice {} p seed = .ok
      (aliceState p (setupChain secrets) (Curve.generateKeyPair seed)
        (nextEpoch (epoch0 rkp secrets) seed).root (nextEpoch (epoch0 rkp secrets) seed).chain) := by
    unfold initializeSessionAsAlice
    simp only
    rw [hsec, ok_bind, hcc, ok_bind, addReceiverChain_eq (by simp [calculateDerivedKeys]), ok_bind,
      setSenderChain_eq (by simp), ok_bind]
    rfl
  refine ⟨_, hinit, ⟨rfl, rfl, rfl, rfl, rfl, ?_, (by show 0 < 2 ^ 32; decide)⟩, rfl⟩
  show [mkChain p.theirRatchetKey _] = _
  rw [hrk]
  rfl

/-- Bob's side of the setup. -/
theorem initBob_forward {p : BobParameters} {secrets : Bytes} (hsec : bobSecrets p = .ok secrets) :
    ∃ s, initializeSessionAsBob {} p = .ok s ∧
      Party p.ourIdentityKey.pub p.theirIdentityKey (epoch0 p.ourRatchetKey secrets) 0 [] s ∧
      s = bobState p (setupRoot secrets) (setupChain secrets) := by
  have hinit : initializeSessionAsBob {} p = .ok (bobState p (setupRoot secrets) (setupChain secrets)) := by
    unfold initializeSessionAsBob
    simp only
    rw [hsec, ok_bind, setSenderChain_eq (by simp [calculateDerivedKeys]), ok_bind]
    rfl
  exact ⟨_, hinit, ⟨rfl, rfl, rfl, rfl, rfl, rfl, (by show 0 < 2 ^ 32; decide)⟩, rfl⟩

/-! ## The initiator's call -/

omit C in
theorem chkU32_range {i : Int} (h0 : 0 ≤ i) (h1 : i < 2 ^ 32) : chkU32 i = .ok i.toNat := by
  obtain ⟨n, rfl⟩ := Int.eq_ofNat_of_zero_le h0
  exact chkU32_ok (by omega)

theorem bundle_forward (hC : C.Lawful) {wA wB : World} {addr : Address} {b : PreKeyBundle} {spkId : Nat}
    {spk : KeyPair} {otk : Option (Nat × KeyPair)} {baseSeed ratchetSeed : Bytes}
    (hA : Spec.GoodSelf wA) (hB : Spec.Published wB b spkId spk otk)
    (htr : wA.isTrusted addr.1 b.identityKey = true) (h1 : baseSeed.length = 32) (h2 : ratchetSeed.length = 32) :
    ∃ secrets s,
      bobSecrets { ourIdentityKey := wB.identityKeyPair, ourSignedPreKey := spk, ourRatchetKey := spk,
                   ourOneTimePreKey := otk.map Prod.snd, theirIdentityKey := wA.identityKeyPair.pub,
                   theirBaseKey := (Curve.generateKeyPair baseSeed).pub } = .ok secrets ∧
      processPreKeyBundle wA addr b baseSeed ratchetSeed =
        ⟨[.session addr ((archiveUnlessFresh (wA.loadSession addr)).setState s), .identity addr.1 b.identityKey],
          .ok ()⟩ ∧
      Party wA.identityKeyPair.pub wB.identityKeyPair.pub (nextEpoch (epoch0 spk secrets) ratchetSeed) 0
        [⟨epoch0 spk secrets, 0, []⟩] s ∧
      Announcing ⟨wA.registrationId.toNat, otk.map Prod.fst, spkId, (Curve.generateKeyPair baseSeed).pub⟩ s ∧
      s.aliceBaseKey = some (Curve.serializePoint (Curve.generateKeyPair baseSeed).pub) ∧
      s.pendingKeyExchange = none := by
  have hbase := generate_good hC h1
  obtain ⟨secrets, e1, e2⟩ := secrets_agree hC (A := wA.identityKeyPair) (B := wB.identityKeyPair)
    (base := Curve.generateKeyPair baseSeed) (spk := spk) (otk := otk.map Prod.snd) hA.identity hB.goodIdentity
    hbase hB.goodSigned
    (by
      intro k hk
      cases otk with
      | none => cases hk
      | some p =>
        simp only [Option.map_some, Option.some.injEq] at hk
        subst hk
        exact (hB.oneTimeStored p rfl).2.2.2) spk.pub spk
  have hpre : (otk.map Prod.snd).map KeyPair.pub = b.preKey := by
    rw [hB.oneTime, Option.map_map]; rfl
  rw [hpre, ← hB.identity] at e1
  obtain ⟨s, g1, g2, g3⟩ := initAlice_forward hC (rkp := spk) e1 rfl hB.goodSigned h2
  have hspk := hB.signedRange
  obtain ⟨hr0, hr1⟩ := hA.registration
  obtain ⟨hq0, hq1⟩ := hB.registrationRange
  let pend : PendingPreKeyS :=
    { preKeyId := otk.map Prod.fst, signedPreKeyId := some (spkId : Int),
      baseKey := some (Curve.serializePoint (Curve.generateKeyPair baseSeed).pub) }
  have hunack : setUnacknowledgedPreKeyMessage s (b.preKey.map fun _ => b.preKeyId) b.signedPreKeyId
      (Curve.generateKeyPair baseSeed).pub = .ok { s with pendingPreKey := some pend } := by
    unfold setUnacknowledgedPreKeyMessage
    have : chkI32 b.signedPreKeyId = .ok (spkId : Int) := by
      rw [hB.signedId, chkI32_eq_ok]; omega
    rw [this, ok_bind, hB.oneTime]
    have hpp : s.pendingPreKey = none := by rw [g3]; rfl
    cases otk with
    | none =>
      simp only [Option.map_none, hpp]
      rfl
    | some p =>
      obtain ⟨q1, q2, _⟩ := hB.oneTimeStored p rfl
      simp only [Option.map_some]
      rw [q1, chkU32_ok q2]
      rfl
  let s' : SessionState := { s with
      pendingPreKey := some pend,
      localRegistrationId := some wA.registrationId.toNat,
      remoteRegistrationId := some wB.registrationId.toNat,
      aliceBaseKey := some (Curve.serializePoint (Curve.generateKeyPair baseSeed).pub) }
  refine ⟨secrets, s', e2, ?_, ?_, ?_, ?_, ?_⟩
  · unfold processPreKeyBundle
    rw [htr, hB.signedKey]
    simp only [Bool.not_true, Bool.false_eq_true, if_false]
    have hver : Curve.verifySignature b.identityKey (Curve.serializePoint spk.pub) b.signedPreKeySignature = .ok true := by
      unfold Curve.verifySignature
      have : Curve.serializePoint spk.pub = 5 :: spk.pub := rfl
      rw [this, hB.signature]
    rw [hver, ok_bind]
    simp only [Bool.not_true, Bool.false_eq_true, if_false]
    rw [archive_load_state, g1, ok_bind, hunack, ok_bind]
    unfold setLocalRegistrationId setRemoteRegistrationId
    rw [chkU32_range hr0 hr1, hB.registration, chkU32_range hq0 hq1]
    simp only [ok_bind]
    rfl
  · rw [← hB.identity]
    exact ⟨g2.ver, g2.lid, g2.rid, g2.root, g2.sender, g2.recv, g2.prev⟩
  · exact ⟨rfl, rfl⟩
  · rfl
  · show s.pendingKeyExchange = none
    rw [g3]; rfl

/-! ## The answering side -/

theorem getKeyPair_signed {w : World} {i : Nat} {k : KeyPair} (h : Spec.HoldsSigned w i k) (hk : k.pub.length = 32) :
    ∃ r, w.loadSignedPreKey i = .ok r ∧ SignedPreKeyRecord.getKeyPair r = .ok k := by
  obtain ⟨r, h1, h2, h3⟩ := h
  refine ⟨r, by unfold World.loadSignedPreKey; rw [h1], ?_⟩
  unfold SignedPreKeyRecord.getKeyPair
  rw [h2, h3]
  have : Curve.decodePoint (5 :: k.pub) = .ok k.pub := decodePoint_serializePoint (by omega)
  simp only [Option.getD_some]
  rw [this]
  rfl

theorem getKeyPair_preKey {w : World} {i : Nat} {k : KeyPair} (h : Spec.HoldsPreKey w i k) (hk : k.pub.length = 32) :
    ∃ r, w.loadPreKey i = .ok r ∧ PreKeyRecord.getKeyPair r = .ok k := by
  obtain ⟨r, h1, h2, h3⟩ := h
  refine ⟨r, by unfold World.loadPreKey; rw [h1], ?_⟩
  unfold PreKeyRecord.getKeyPair
  rw [h2, h3]
  have : Curve.decodePoint (5 :: k.pub) = .ok k.pub := decodePoint_serializePoint (by omega)
  simp only [Option.getD_some]
  rw [this]
  rfl

theorem processV3_forward (hC : C.Lawful) {w : World} {a : Address} {m : PreKeyWhisperMessage} {spk : KeyPair}
    {otk : Option KeyPair} {secrets : Bytes}
    (hnew : (w.loadSession a).hasSessionState m.version (Curve.serializePoint m.baseKey) = false)
    (hspk : Spec.HoldsSigned w m.signedPreKeyId spk) (hgs : GoodPair spk)
    (hotk : match m.preKeyId with
      | none => otk = none
      | some i => ∃ k, otk = some k ∧ Spec.HoldsPreKey w i k ∧ GoodPair k)
    (hsec : bobSecrets
      { ourIdentityKey := w.identityKeyPair, ourSignedPreKey := spk, ourRatchetKey := spk,
        ourOneTimePreKey := otk, theirIdentityKey := m.identityKey, theirBaseKey := m.baseKey } = .ok secrets)
    (hreg : 0 ≤ w.registrationId ∧ w.registrationId < 2 ^ 32) (hmr : m.registrationId < 2 ^ 32) :
    ∃ s, processV3 w (w.loadSession a) m = .ok ((archiveUnlessFresh (w.loadSession a)).setState s,
        Spec.consumedId m.preKeyId) ∧
      Party w.identityKeyPair.pub m.identityKey (epoch0 spk secrets) 0 [] s ∧
      s.aliceBaseKey = some (Curve.serializePoint m.baseKey) ∧ s.pendingPreKey = none := by
  obtain ⟨rec, r1, r2⟩ := getKeyPair_signed hspk (hgs.pub_len hC)
  obtain ⟨s, g1, g2, g3⟩ := initBob_forward hsec
  obtain ⟨q0, q1⟩ := hreg
  let s' : SessionState := { s with
      localRegistrationId := some w.registrationId.toNat,
      remoteRegistrationId := some m.registrationId,
      aliceBaseKey := some (Curve.serializePoint m.baseKey) }
  refine ⟨s', ?_, ?_, ?_, ?_⟩
  · unfold processV3
    rw [hnew]
    simp only [Bool.false_eq_true, if_false]
    rw [r1, ok_bind, r2, ok_bind]
    have tail : ∀ u : Option Nat, (do
        let s0 ← initializeSessionAsBob (archiveUnlessFresh (w.loadSession a)).sessionState
          { theirBaseKey := m.baseKey, theirIdentityKey := m.identityKey,
            ourIdentityKey := w.identityKeyPair, ourSignedPreKey := spk,
            ourRatchetKey := spk, ourOneTimePreKey := otk }
        let s1 ← setLocalRegistrationId s0 w.registrationId
        let s2 ← setRemoteRegistrationId s1 m.registrationId
        Except.ok ((archiveUnlessFresh (w.loadSession a)).setState
          (setAliceBaseKey s2 (Curve.serializePoint m.baseKey)), u) : Res (SessionRecord × Option Nat)) =
        .ok ((archiveUnlessFresh (w.loadSession a)).setState s', u) := by
      intro u
      rw [archive_load_state, g1, ok_bind]
      unfold setLocalRegistrationId setRemoteRegistrationId
      rw [chkU32_range q0 q1]
      simp only [ok_bind]
      rw [chkU32_ok hmr]
      rfl
    cases hp : m.preKeyId with
    | none =>
      rw [hp] at hotk
      simp only at hotk
      rw [hotk] at tail
      exact tail _
    | some i =>
      rw [hp] at hotk
      obtain ⟨k, hk, hh, hg⟩ := hotk
      obtain ⟨prec, p1, p2⟩ := getKeyPair_preKey hh (hg.pub_len hC)
      simp only
      rw [p1, ok_bind, p2, ok_bind]
      rw [hk] at tail
      have hid : (if i ≠ Medium.MAX_VALUE then some i else none) = Spec.consumedId (some i) := by
        unfold Spec.consumedId
        simp only [Medium.MAX_VALUE]
        by_cases h : i = 0xFFFFFF <;> simp [h]
      rw [← hid]
      exact tail _
  · exact ⟨g2.ver, g2.lid, g2.rid, g2.root, g2.sender, g2.recv, g2.prev⟩
  · rfl
  · show s.pendingPreKey = none
    rw [g3]; rfl

end
end Axolotl
