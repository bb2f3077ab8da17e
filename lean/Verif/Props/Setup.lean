import Verif.Proofs.Contact
import Verif.Example

/-! # C12, C13, C14: session setup -/

namespace Axolotl
section
variable [C : Crypto]
open SessionState SessionBuilder RatchetingSession
open Spec (GoodPair)

/-- Bundle, first message and its receipt, in one run. -/
theorem contact_run (hC : C.Lawful) {wA wB : World} {ab ba : Address} {b : PreKeyBundle} {spkId : Nat}
    {spk : KeyPair} {otk : Option (Nat × KeyPair)} {baseSeed ratchetSeed bobSeed pt : Bytes} (seeds : Nat → Bytes)
    (h : Spec.FirstContact wA wB ab ba b spkId spk otk baseSeed ratchetSeed bobSeed pt) :
    ∃ r0 s0 rA sA p p' okm,
      processPreKeyBundle wA ab b baseSeed ratchetSeed =
        ⟨[.session ab r0, .identity ab.1 b.identityKey], .ok ()⟩ ∧ r0.sessionState = s0 ∧
      SessionCipher.encrypt ((processPreKeyBundle wA ab b baseSeed ratchetSeed).final wA) ab pt =
        ⟨[.session ab rA], .ok (.preKey p)⟩ ∧ rA.sessionState = sA ∧
      PreKeyWhisperMessage.parse p.serialized = .ok p' ∧
      Spec.SetupMaterial wA.identityKeyPair.priv (C.genPriv baseSeed) wB.identityKeyPair.pub spk.pub
        (otk.map fun q => q.2.pub) okm ∧
      Spec.InitiatorState s0 okm spk.pub ∧
      (∀ q, (q = p ∨ (q = p' ∧ otk ≠ none)) → ∃ rB sB,
        SessionCipher.decryptPkmsg wB ba q bobSeed seeds =
          ⟨[.identity ba.1 wA.identityKeyPair.pub] ++ [.session ba rB] ++
            ((Spec.consumedId (otk.map Prod.fst)).map Write.removePreKey).toList,
            .ok pt⟩ ∧ rB.sessionState = sB ∧
        Spec.SameEnds sA sB ∧ Spec.InStep sA sB ∧ sA.aliceBaseKey = sB.aliceBaseKey) := by
  obtain ⟨hA, hB, htA, htB, h1, h2, h3, hnew, hpt⟩ := h
  have hb := generate_good hC h1
  obtain ⟨secrets, s0, e1, e2, e3, e4, e5, e6⟩ := bundle_forward hC hA hB htA h1 h2
  have hge : (epoch0 spk secrets).Good := ⟨hB.goodSigned.priv, hB.goodSigned.pub⟩
  have hy := nextEpoch_good hC (epoch0 spk secrets) h2
  have hxy := nextEpoch_next hC hge h2
  have hz := nextEpoch_good hC (nextEpoch (epoch0 spk secrets) ratchetSeed) h3
  have hyz := nextEpoch_next hC hy h3
  have hAl := hA.identity.pub_len hC
  have hBl := hB.goodIdentity.pub_len hC
  have hok : PkHeader.Ok ⟨wA.registrationId.toNat, otk.map Prod.fst, spkId, (Curve.generateKeyPair baseSeed).pub⟩ := by
    refine ⟨?_, ?_, hB.signedRange, hb.pub_len hC⟩
    · have := hA.registration; show wA.registrationId.toNat < _; omega
    · cases otk with
      | none => exact fun _ h => by cases h
      | some o => intro i hi; injection hi with hi; subst hi; exact (hB.oneTimeStored o rfl).2.1
  obtain ⟨m, p, p', sA, g1, g2, g3, g4, g5, g6, g7⟩ := send_prekey hC hAl hBl e3 hy (by decide) pt hpt hok e4
  have hmat : ∃ okm, Spec.SetupMaterial wA.identityKeyPair.priv (C.genPriv baseSeed) wB.identityKeyPair.pub spk.pub
      (otk.map fun q => q.2.pub) okm ∧ setupRoot secrets = okm.take 32 ∧ setupChain secrets = okm.drop 32 := by
    obtain ⟨sec', a1, a2⟩ := secrets_agree hC (A := wA.identityKeyPair) (B := wB.identityKeyPair)
      (base := Curve.generateKeyPair baseSeed) (spk := spk) (otk := otk.map Prod.snd) hA.identity hB.goodIdentity
      hb hB.goodSigned
      (by
        intro k hk
        cases otk with
        | none => cases hk
        | some o =>
          simp only [Option.map_some, Option.some.injEq] at hk
          subst hk
          exact (hB.oneTimeStored o rfl).2.2.2) spk.pub spk
    rw [e1] at a2
    rw [← Except.ok.inj a2] at a1
    have h := secrets_material hC.hmac_len a1
    simp only [Option.map_map] at h
    exact h
  obtain ⟨okm, q1, q2, q3⟩ := hmat
  let r0 := (archiveUnlessFresh (wA.loadSession ab)).setState s0
  refine ⟨r0, s0, { r0 with fresh := false }.setState sA, sA, p, p', okm, e2, rfl, ?_, rfl, g2.parse, q1, ?_, ?_⟩
  · exact encrypt_forward (r := r0) (by rw [e2]; simp [Outcome.final, World.applyAll, World.apply, upd, r0]) g1
  · refine ⟨⟨_, e3.recv, rfl, ?_, rfl⟩, ?_⟩
    · show some ({ key := some (setupChain secrets), index := some 0 } : ChainKeyS) = _
      rw [q3]
    · obtain ⟨sec, _, d2, d3, d4⟩ := hxy
      refine ⟨_, sec, e3.sender, d2, ?_, ?_⟩
      · rw [e3.root, d3, ← q2]; rfl
      · show some ({ key := some (nextEpoch (epoch0 spk secrets) ratchetSeed).chain, index := some 0 } : ChainKeyS) = _
        rw [d4, ← q2]; rfl
  · intro q hq
    have hf : q.version = 3 ∧ q.registrationId = wA.registrationId.toNat ∧ q.signedPreKeyId = spkId ∧
        q.baseKey = (Curve.generateKeyPair baseSeed).pub ∧ q.identityKey = wA.identityKeyPair.pub ∧ q.message = m ∧
        q.preKeyId = otk.map Prod.fst := by
      rcases hq with rfl | ⟨rfl, hne⟩
      · obtain ⟨t1, t2, t3, t4, t5, t6⟩ := g2.sent
        exact ⟨t6, t5, t2, t3, t4, g2.message, t1⟩
      · refine ⟨g2.version, g2.reg, g2.spk, g2.bk, g2.ik, g2.message', ?_⟩
        rw [g2.pk]
        cases otk with
        | none => exact absurd rfl hne
        | some o => rfl
    obtain ⟨f1, f2, f3, f4, f5, f6, f7⟩ := hf
    have hreg := hA.registration
    obtain ⟨rB, sB, t1, t2, t3, t4, t5⟩ := first_receive hC (w := wB) (a := ba) (m := q) (spk := spk)
      (otk := otk.map Prod.snd) (secrets := secrets) (y := nextEpoch (epoch0 spk secrets) ratchetSeed)
      (z := nextEpoch (nextEpoch (epoch0 spk secrets) ratchetSeed) bobSeed) (k := 0) (pt := pt) (seed := bobSeed)
      hB.goodIdentity (by rw [f5]; exact hAl) (by rw [f5]; exact htB)
      (by
        rintro ⟨r, hr, hk⟩
        rw [f1, f4] at hk
        exact hnew r hr hk)
      (by rw [f3]; exact hB.signedStored) hB.goodSigned
      (by
        rw [f7]
        cases otk with
        | none => rfl
        | some o => exact ⟨o.2, rfl, (hB.oneTimeStored o rfl).2.2⟩)
      (by rw [f5, f4]; exact e1) hB.registrationRange (by rw [f2]; omega) hy hxy
      (by rw [f5, f6]; exact g4) (by omega) rfl rfl hyz seeds
    rw [f5, f7] at t1
    rw [f5] at t3
    rw [f4] at t4
    refine ⟨rB, sB, t1, t2, ⟨g5.version, t3.version, by rw [g5.lid, t3.rid], by rw [t3.lid, g5.rid]⟩, ⟨?_, ?_⟩, by
      rw [g7, e5, t4]⟩
    · exact ⟨_, _, g5.sender, t3.recv, rfl, rfl, rfl⟩
    · obtain ⟨sec, d1, d2, d3, d4⟩ := hyz
      refine ⟨_, _, (nextEpoch (epoch0 spk secrets) ratchetSeed).pub, _, sec, g5.sender, t3.sender, rfl, rfl, d1, d2,
        ?_, ?_⟩
      · rw [t3.root, g5.root, d3]; rfl
      · rw [g5.root]
        show some ({ key := some (nextEpoch _ bobSeed).chain, index := some 0 } : ChainKeyS) = _
        rw [d4]; rfl

/-- **C12.** The initiator processes the peer's bundle and encrypts; the peer processes the message that
`encrypt` returned.  Then the initiator's first state is the one the three or four Diffie-Hellman secrets
determine, the peer's receive chain is the initiator's sending chain (same key, same counter), and the
peer's new root key and sending chain are one ratchet step from the initiator's root key, a step the
initiator can take too.  With or without a one-time prekey. -/
theorem C12_setup_agrees (hC : C.Lawful) {wA wB : World} {ab ba : Address} {b : PreKeyBundle} {spkId : Nat}
    {spk : KeyPair} {otk : Option (Nat × KeyPair)} {baseSeed ratchetSeed bobSeed pt : Bytes} (seeds : Nat → Bytes)
    (h : Spec.FirstContact wA wB ab ba b spkId spk otk baseSeed ratchetSeed bobSeed pt) :
    ∃ p okm, let wA1 := (processPreKeyBundle wA ab b baseSeed ratchetSeed).final wA
      let e := SessionCipher.encrypt wA1 ab pt
      let o := SessionCipher.decryptPkmsg wB ba p bobSeed seeds
      (processPreKeyBundle wA ab b baseSeed ratchetSeed).result = .ok () ∧
      Spec.SetupMaterial wA.identityKeyPair.priv (C.genPriv baseSeed) wB.identityKeyPair.pub spk.pub
        (otk.map fun q => q.2.pub) okm ∧
      e.result = .ok (.preKey p) ∧ o.result = .ok pt ∧
      ∃ r0 rA rB, wA1.sessions ab = some r0 ∧ (e.final wA1).sessions ab = some rA ∧
        (o.final wB).sessions ba = some rB ∧
        Spec.InitiatorState r0.sessionState okm spk.pub ∧
        Spec.SameEnds rA.sessionState rB.sessionState ∧ Spec.InStep rA.sessionState rB.sessionState ∧
        rA.sessionState.aliceBaseKey = rB.sessionState.aliceBaseKey := by
  obtain ⟨r0, s0, rA, sA, p, p', okm, h1, rfl, h2, rfl, h3, h4, h5, h6⟩ := contact_run hC seeds h
  obtain ⟨rB, sB, g1, rfl, g2, g3, g4⟩ := h6 p (Or.inl rfl)
  refine ⟨p, okm, ?_⟩
  dsimp only
  refine ⟨by rw [h1], h4, by rw [h2], by rw [g1], r0, rA, rB, ?_, ?_, ?_, h5, g2, g3, g4⟩
  · rw [h1]; simp [Outcome.final, World.applyAll, World.apply, upd]
  · rw [h2]; simp [Outcome.final, World.applyAll, World.apply, upd]
  · rw [g1]
    unfold Outcome.final
    simp only
    cases Spec.consumedId (otk.map Prod.fst) <;> simp [World.applyAll, World.apply, upd]

/-- **C13**, for bundles with a one-time prekey: the bytes shipped decrypt to the plaintext, the recipient
has a session and the one-time prekey is gone (unless it is the last-resort key), all others are kept.
Missing for the full statement: bundles without a one-time prekey, for which it is false
(`C13_fails_without_one_time_prekey`). -/
theorem C13_first_contact_partial (hC : C.Lawful) {wA wB : World} {ab ba : Address} {b : PreKeyBundle} {spkId : Nat}
    {spk otk : KeyPair} {otId : Nat} {baseSeed ratchetSeed bobSeed pt : Bytes} (seeds : Nat → Bytes)
    (h : Spec.FirstContact wA wB ab ba b spkId spk (some (otId, otk)) baseSeed ratchetSeed bobSeed pt) :
    ∃ c p', let wA1 := (processPreKeyBundle wA ab b baseSeed ratchetSeed).final wA
      let o := SessionCipher.decryptPkmsg wB ba p' bobSeed seeds
      (SessionCipher.encrypt wA1 ab pt).result = .ok c ∧ c.getType = 3 ∧
      PreKeyWhisperMessage.parse c.serialize = .ok p' ∧
      o.result = .ok pt ∧ ((o.final wB).sessions ba).isSome = true ∧
      (o.final wB).preKeys otId = (if otId = 0xFFFFFF then wB.preKeys otId else none) ∧
      ∀ i, i ≠ otId → (o.final wB).preKeys i = wB.preKeys i := by
  obtain ⟨r0, s0, rA, sA, p, p', okm, h1, rfl, h2, rfl, h3, h4, h5, h6⟩ := contact_run hC seeds h
  obtain ⟨rB, sB, g1, rfl, g2, g3, g4⟩ := h6 p' (Or.inr ⟨rfl, by simp⟩)
  refine ⟨.preKey p, p', ?_⟩
  dsimp only
  refine ⟨by rw [h2], rfl, h3, by rw [g1], ?_, ?_, ?_⟩
  · rw [g1]
    unfold Outcome.final
    simp only
    cases Spec.consumedId (some (otId, otk) |>.map Prod.fst) <;> simp [World.applyAll, World.apply, upd]
  · rw [g1]
    unfold Outcome.final Spec.consumedId
    simp only [Option.map_some]
    split <;> simp [World.applyAll, World.apply, upd]
  · intro i hi
    rw [g1]
    unfold Outcome.final Spec.consumedId
    simp only [Option.map_some]
    split <;> simp [World.applyAll, World.apply, upd, hi]

end

/-! ## Examples -/

section
attribute [local instance] toy
open Example

/-- The hypotheses are met, with a one-time prekey. -/
theorem contact_example : Spec.FirstContact alice0 bob0 bobAddr aliceAddr bobBundle 22 (pair 22) (some (31, pair 31))
    (key 41) (key 42) (key 51) [104, 105] where
  self := ⟨⟨by decide +kernel, by decide +kernel, toy_generated _ (by decide +kernel)⟩, by decide +kernel⟩
  published := by
    refine ⟨rfl, ⟨by decide +kernel, by decide +kernel, toy_generated _ (by decide +kernel)⟩, rfl, rfl, by decide +kernel, ⟨bobSignedPreKey, by decide +kernel, by decide +kernel, by decide +kernel⟩,
      ⟨by decide +kernel, by decide +kernel, toy_generated _ (by decide +kernel)⟩, by decide +kernel, rfl, ?_, rfl, by decide +kernel⟩
    intro p hp
    injection hp with hp
    subst hp
    exact ⟨rfl, by decide +kernel, ⟨bobPreKey, by decide +kernel, by decide +kernel, by decide +kernel⟩, ⟨by decide +kernel, by decide +kernel, toy_generated _ (by decide +kernel)⟩⟩
  trustA := by decide
  trustB := by decide
  seed1 := rfl
  seed2 := rfl
  seed3 := rfl
  new := by intro r hr; cases hr
  size := by decide

def bareBundle : PreKeyBundle := { bobBundle with preKeyId := 0, preKey := none }

/-- The hypotheses are met, without a one-time prekey. -/
theorem contact_example_bare : Spec.FirstContact alice0 bob0 bobAddr aliceAddr bareBundle 22 (pair 22) none
    (key 41) (key 42) (key 51) [104, 105] where
  self := ⟨⟨by decide +kernel, by decide +kernel, toy_generated _ (by decide +kernel)⟩, by decide +kernel⟩
  published := ⟨rfl, ⟨by decide +kernel, by decide +kernel, toy_generated _ (by decide +kernel)⟩, rfl, rfl, by decide +kernel, ⟨bobSignedPreKey, by decide +kernel, by decide +kernel, by decide +kernel⟩,
      ⟨by decide +kernel, by decide +kernel, toy_generated _ (by decide +kernel)⟩, by decide +kernel, rfl, (by intro p hp; cases hp), rfl, by decide +kernel⟩
  trustA := by decide
  trustB := by decide
  seed1 := rfl
  seed2 := rfl
  seed3 := rfl
  new := by intro r hr; cases hr
  size := by decide

def bareAlice : World := (SessionBuilder.processPreKeyBundle alice0 bobAddr bareBundle (key 41) (key 42)).final alice0

/-- What Bob makes of the bytes of Alice's first message: parse and decrypt. -/
def bareGot : Res Bytes := do
  let c ← (SessionCipher.encrypt bareAlice bobAddr [104, 105]).result
  let p ← PreKeyWhisperMessage.parse c.serialize
  (SessionCipher.decryptPkmsg bob0 aliceAddr p (key 51) (fun _ => key 52)).result

/-- Without a one-time prekey the recipient refuses the bytes: the parser reads the absent id as 0. -/
theorem C13_fails_without_one_time_prekey : ¬ ∀ (C : Crypto), C.Lawful → ∀ (wA wB : World) (ab ba : Address)
    (b : PreKeyBundle) (spkId : Nat) (spk : KeyPair) (otk : Option (Nat × KeyPair))
    (baseSeed ratchetSeed bobSeed pt : Bytes) (seeds : Nat → Bytes),
    Spec.FirstContact wA wB ab ba b spkId spk otk baseSeed ratchetSeed bobSeed pt →
    (do let c ← (SessionCipher.encrypt
          ((SessionBuilder.processPreKeyBundle wA ab b baseSeed ratchetSeed).final wA) ab pt).result
        let p ← PreKeyWhisperMessage.parse c.serialize
        (SessionCipher.decryptPkmsg wB ba p bobSeed seeds).result) = Except.ok pt := by
  intro h
  have h1 := h toy toy_lawful _ _ _ _ _ _ _ _ _ _ _ _ (fun _ => key 52) contact_example_bare
  have h2 : bareGot = .error .invalidKeyId := by decide +kernel
  change bareGot = _ at h1
  rw [h2] at h1
  cases h1

end

end Axolotl
