import Verif.Proofs.Setup
import Verif.Props.PreKeys

/-! Whole calls on the two sides of a session, from the state-level lemmas. -/

namespace Axolotl
section
variable [C : Crypto]
open SessionState SessionBuilder RatchetingSession
open Spec (GoodPair)

theorem pkmsg_eq {w : World} {a : Address} {m : PreKeyWhisperMessage} {r : SessionRecord} {u : Option Nat}
    (ht : w.isTrusted a.1 m.identityKey = true) (hv : processV3 w (w.loadSession a) m = .ok (r, u))
    (seed : Bytes) (seeds : Nat → Bytes) :
    SessionCipher.decryptPkmsg w a m seed seeds =
      match SessionCipher.decryptWithSessionRecord r m.message seed seeds with
      | .error e => ⟨[.identity a.1 m.identityKey], .error e⟩
      | .ok (pt, r') => ⟨[.identity a.1 m.identityKey] ++ [.session a r'] ++ (u.map Write.removePreKey).toList, .ok pt⟩ := by
  unfold SessionCipher.decryptPkmsg SessionBuilder.process
  rw [ht, hv]
  rfl

theorem dwsr_forward {r : SessionRecord} {m : WhisperMessage} {seed pt : Bytes} {s : SessionState} (seeds : Nat → Bytes)
    (h : SessionCipher.decryptWithSessionState r.sessionState m seed = .ok (pt, s)) :
    SessionCipher.decryptWithSessionRecord r m seed seeds = .ok (pt, r.setState s) := by
  unfold SessionCipher.decryptWithSessionRecord; rw [h]

theorem dwsr_duplicate {r : SessionRecord} {m : WhisperMessage} {seed : Bytes} (seeds : Nat → Bytes)
    (h : SessionCipher.decryptWithSessionState r.sessionState m seed = .error .duplicateMessage) :
    SessionCipher.decryptWithSessionRecord r m seed seeds = .error .duplicateMessage := by
  unfold SessionCipher.decryptWithSessionRecord; rw [h]

omit C in
theorem setState_state (r : SessionRecord) (s : SessionState) : (r.setState s).sessionState = s := rfl

/-- The key material of setup. -/
theorem secrets_material (hlen : ∀ k m, (C.hmac k m).length = 32) {p : AliceParameters} {secrets : Bytes}
    (h : aliceSecrets p = .ok secrets) :
    ∃ okm, Spec.SetupMaterial p.ourIdentityKey.priv p.ourBaseKey.priv p.theirIdentityKey p.theirSignedPreKey
        p.theirOneTimePreKey okm ∧ setupRoot secrets = okm.take 32 ∧ setupChain secrets = okm.drop 32 := by
  have hcalc : ∀ {a b s : Bytes}, Curve.calculateAgreement b a = .ok s → C.dh a b = some s := by
    intro a b s h
    unfold Curve.calculateAgreement at h
    split at h
    · rename_i x hx; injection h with h; rw [hx, h]
    · cases h
  unfold aliceSecrets at h
  obtain ⟨d1, h1, h⟩ := bind_eq_ok.1 h
  obtain ⟨d2, h2, h⟩ := bind_eq_ok.1 h
  obtain ⟨d3, h3, h⟩ := bind_eq_ok.1 h
  obtain ⟨d4, h4, h⟩ : ∃ d4, p.theirOneTimePreKey.elim (d4 = []) (fun k => C.dh p.ourBaseKey.priv k = some d4) ∧ discontinuityBytes ++ d1 ++ d2 ++ d3 ++ d4 = secrets := by
    cases hk : p.theirOneTimePreKey with
    | none => rw [hk] at h; exact ⟨[], rfl, Except.ok.inj h⟩
    | some k =>
      rw [hk] at h
      obtain ⟨d4, h4, h⟩ := bind_eq_ok.1 h
      exact ⟨d4, hcalc h4, Except.ok.inj h⟩
  have e : Kdf.v3.deriveSecrets secrets TEXT_INFO 64 = Spec.hkdf [] secrets Spec.textInfo 64 := by
    have : TEXT_INFO = Spec.textInfo := by decide
    rw [this]
    exact (C11_library_sizes hlen _ _ _).2.1
  have hl : (Kdf.v3.deriveSecrets secrets TEXT_INFO 64).length = 64 := C11_length hlen _ _ _ _ _
  refine ⟨Spec.hkdf [] secrets Spec.textInfo 64, ⟨d1, d2, d3, d4, hcalc h1, hcalc h2, hcalc h3, h4, ?_⟩, ?_, ?_⟩
  · rw [← h]; rfl
  · rw [← e]; unfold setupRoot calculateDerivedKeys; simp only; rw [split2_sizes _ hl]
  · rw [← e]; unfold setupChain calculateDerivedKeys; simp only; rw [split2_sizes _ hl]

/-- The answering side's first message, when it starts the session. -/
theorem first_receive_record (hC : C.Lawful) {w : World} {a : Address} {m : PreKeyWhisperMessage} {spk : KeyPair}
    {otk : Option KeyPair} {secrets : Bytes} {y z : Epoch .v3} {k : Nat} {pt seed : Bytes}
    (hid : GoodPair w.identityKeyPair) (hik : m.identityKey.length = 32)
    (htr : w.isTrusted a.1 m.identityKey = true)
    (hnew : ¬ Spec.alreadyKnown w a m)
    (hspk : Spec.HoldsSigned w m.signedPreKeyId spk) (hgs : GoodPair spk)
    (hotk : match m.preKeyId with
      | none => otk = none
      | some i => ∃ k, otk = some k ∧ Spec.HoldsPreKey w i k ∧ GoodPair k)
    (hsec : bobSecrets
      { ourIdentityKey := w.identityKeyPair, ourSignedPreKey := spk, ourRatchetKey := spk,
        ourOneTimePreKey := otk, theirIdentityKey := m.identityKey, theirBaseKey := m.baseKey } = .ok secrets)
    (hreg : 0 ≤ w.registrationId ∧ w.registrationId < 2 ^ 32) (hmr : m.registrationId < 2 ^ 32)
    (hy : y.Good) (hxy : (epoch0 spk secrets).Next y)
    (hg : Genuine m.identityKey w.identityKeyPair.pub y k pt m.message) (hk : k ≤ 2000)
    (hz1 : z.priv = C.genPriv seed) (hz2 : z.pub = C.genPub z.priv) (hyz : y.Next z) (seeds : Nat → Bytes) :
    ∃ s',
      SessionCipher.decryptPkmsg w a m seed seeds =
        ⟨[.identity a.1 m.identityKey] ++ [.session a ((archiveUnlessFresh (w.loadSession a)).setState s')] ++
          ((Spec.consumedId m.preKeyId).map Write.removePreKey).toList,
          .ok pt⟩ ∧
      Party w.identityKeyPair.pub m.identityKey z 0 [⟨y, k + 1, List.range' 0 k⟩] s' ∧
      s'.aliceBaseKey = some (Curve.serializePoint m.baseKey) ∧ s'.pendingPreKey = none := by
  have hnew' : (w.loadSession a).hasSessionState m.version (Curve.serializePoint m.baseKey) = false := by
    cases h : (w.loadSession a).hasSessionState m.version (Curve.serializePoint m.baseKey) with
    | false => rfl
    | true => exact absurd ((loaded_known w a m).1 h) hnew
  obtain ⟨s, h1, h2, h3, h4⟩ := processV3_forward hC hnew' hspk hgs hotk hsec hreg hmr
  have hge : (epoch0 spk secrets).Good := ⟨hgs.priv, hgs.pub⟩
  obtain ⟨s', g1, g2, g3⟩ := recv_new hC (hid.pub_len hC) hik h2 (by decide) hge hy (by simp) (by simp) (by simp)
    hxy hg hk hz1 hz2 hyz
  refine ⟨s', ?_, g2, by rw [g3, h3], ?_⟩
  · rw [pkmsg_eq htr h1, dwsr_forward seeds (by rw [setState_state]; exact g1)]
    rfl
  · exact (dwss_same g1).2.2

theorem first_receive (hC : C.Lawful) {w : World} {a : Address} {m : PreKeyWhisperMessage} {spk : KeyPair}
    {otk : Option KeyPair} {secrets : Bytes} {y z : Epoch .v3} {k : Nat} {pt seed : Bytes}
    (hid : GoodPair w.identityKeyPair) (hik : m.identityKey.length = 32)
    (htr : w.isTrusted a.1 m.identityKey = true)
    (hnew : ¬ Spec.alreadyKnown w a m)
    (hspk : Spec.HoldsSigned w m.signedPreKeyId spk) (hgs : GoodPair spk)
    (hotk : match m.preKeyId with
      | none => otk = none
      | some i => ∃ k, otk = some k ∧ Spec.HoldsPreKey w i k ∧ GoodPair k)
    (hsec : bobSecrets
      { ourIdentityKey := w.identityKeyPair, ourSignedPreKey := spk, ourRatchetKey := spk,
        ourOneTimePreKey := otk, theirIdentityKey := m.identityKey, theirBaseKey := m.baseKey } = .ok secrets)
    (hreg : 0 ≤ w.registrationId ∧ w.registrationId < 2 ^ 32) (hmr : m.registrationId < 2 ^ 32)
    (hy : y.Good) (hxy : (epoch0 spk secrets).Next y)
    (hg : Genuine m.identityKey w.identityKeyPair.pub y k pt m.message) (hk : k ≤ 2000)
    (hz1 : z.priv = C.genPriv seed) (hz2 : z.pub = C.genPub z.priv) (hyz : y.Next z) (seeds : Nat → Bytes) :
    ∃ r' s',
      SessionCipher.decryptPkmsg w a m seed seeds =
        ⟨[.identity a.1 m.identityKey] ++ [.session a r'] ++
          ((Spec.consumedId m.preKeyId).map Write.removePreKey).toList,
          .ok pt⟩ ∧ r'.sessionState = s' ∧
      Party w.identityKeyPair.pub m.identityKey z 0 [⟨y, k + 1, List.range' 0 k⟩] s' ∧
      s'.aliceBaseKey = some (Curve.serializePoint m.baseKey) ∧ s'.pendingPreKey = none := by
  obtain ⟨s', h1, h2, h3, h4⟩ := first_receive_record hC hid hik htr hnew hspk hgs hotk hsec hreg hmr hy hxy hg hk hz1 hz2 hyz seeds
  exact ⟨_, s', h1, rfl, h2, h3, h4⟩

theorem encrypt_forward {w : World} {a : Address} {r : SessionRecord} {pt : Bytes} {c : Ciphertext} {s' : SessionState}
    (hr : w.sessions a = some r) (h : SessionCipher.encryptWithState r.sessionState pt = .ok (c, s')) :
    SessionCipher.encrypt w a pt = ⟨[.session a ({ r with fresh := false }.setState s')], .ok c⟩ := by
  have hload : w.loadSession a = { r with fresh := false } := by unfold World.loadSession; rw [hr]
  unfold SessionCipher.encrypt
  rw [hload]
  simp only
  rw [h]
  rfl

end
end Axolotl
