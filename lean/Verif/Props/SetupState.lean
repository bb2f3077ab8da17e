import Verif.Props.Ratchet
import Verif.Proofs.KeyExchange

/-! # C56: which state session setup creates -/

namespace Axolotl
section
variable [C : Crypto]
open SessionState SessionBuilder RatchetingSession Spec

/-! ## The order of base keys -/

omit C in
theorem beI32_word (x y z t : UInt8) (rest : Bytes) : Curve.beI32 x y z t = word (x :: y :: z :: t :: rest) 0 := by
  unfold Curve.beI32 word
  simp only [Nat.mul_zero, List.drop_zero, List.take_succ_cons, List.take_zero, List.foldl_cons, List.foldl_nil]
  have e : x.toNat * 2 ^ 24 + y.toNat * 2 ^ 16 + z.toNat * 2 ^ 8 + t.toNat =
      256 * (256 * (256 * (256 * 0 + x.toNat) + y.toNat) + z.toNat) + t.toNat := by omega
  rw [e]

omit C in
theorem unpackI_words : ∀ {n : Nat} {a : Bytes} {l : List Int}, Curve.unpackI n a = .ok l →
    l = (List.range n).map (word a) := by
  intro n
  induction n with
  | zero =>
    intro a l h
    cases a with
    | nil => exact (Except.ok.inj h).symm
    | cons => simp [Curve.unpackI] at h
  | succ n ih =>
    intro a l h
    unfold Curve.unpackI at h
    split at h
    · cases ‹n + 1 = 0›
    · rename_i n' x y z t rest e
      injection e with e
      subst e
      obtain ⟨l1, g1, h⟩ := bind_eq_ok.1 h
      rw [← Except.ok.inj h, ih g1, List.range_succ_eq_map, List.map_cons, List.map_map, beI32_word x y z t rest]
      congr 1
    · cases h

omit C in
theorem tupleLt_iff : ∀ {n : Nat} {f g : Nat → Int},
    Curve.tupleLt ((List.range n).map f) ((List.range n).map g) = true ↔
      ∃ i, i < n ∧ f i < g i ∧ ∀ j, j < i → f j = g j := by
  intro n
  induction n with
  | zero =>
    intro f g
    constructor
    · intro h; cases h
    · rintro ⟨i, hi, _⟩; omega
  | succ n ih =>
    intro f g
    rw [List.range_succ_eq_map, List.map_cons, List.map_cons, List.map_map, List.map_map]
    unfold Curve.tupleLt
    by_cases h1 : f 0 < g 0
    · rw [if_pos h1]
      exact ⟨fun _ => ⟨0, by omega, h1, by intro j hj; omega⟩, fun _ => rfl⟩
    · rw [if_neg h1]
      by_cases h2 : f 0 = g 0
      · rw [if_pos h2, ih (f := f ∘ Nat.succ) (g := g ∘ Nat.succ)]
        constructor
        · rintro ⟨i, hi, hl, he⟩
          refine ⟨i + 1, by omega, hl, ?_⟩
          intro j hj
          cases j with
          | zero => exact h2
          | succ j => exact he j (by omega)
        · rintro ⟨i, hi, hl, he⟩
          cases i with
          | zero => exact absurd hl h1
          | succ i => exact ⟨i, by omega, hl, fun j hj => he (j + 1) (by omega)⟩
      · rw [if_neg h2]
        constructor
        · intro h; cases h
        · rintro ⟨i, hi, hl, he⟩
          cases i with
          | zero => exact absurd hl h1
          | succ i => exact absurd (he 0 (by omega)) h2

omit C in
theorem pubLt_iff {a b : ECPub} {t : Bool} (h : Curve.pubLt a b = .ok t) : t = true ↔ SmallerKey a b := by
  unfold Curve.pubLt at h
  obtain ⟨l1, h1, h⟩ := bind_eq_ok.1 h
  obtain ⟨l2, h2, h⟩ := bind_eq_ok.1 h
  rw [← Except.ok.inj h, unpackI_words h1, unpackI_words h2]
  exact tupleLt_iff

/-! ## The two initial states -/

theorem bob_material (hlen : ∀ k m, (C.hmac k m).length = 32) {p : BobParameters} {secrets : Bytes}
    (h : bobSecrets p = .ok secrets) :
    ∃ okm, AnswerMaterial p.ourIdentityKey.priv p.ourSignedPreKey.priv (p.ourOneTimePreKey.map KeyPair.priv)
        p.theirIdentityKey p.theirBaseKey okm ∧ setupRoot secrets = okm.take 32 ∧ setupChain secrets = okm.drop 32 := by
  unfold bobSecrets at h
  obtain ⟨d1, h1, h⟩ := bind_eq_ok.1 h
  obtain ⟨d2, h2, h⟩ := bind_eq_ok.1 h
  obtain ⟨d3, h3, h⟩ := bind_eq_ok.1 h
  obtain ⟨d4, h4, h⟩ : ∃ d4, (p.ourOneTimePreKey.map KeyPair.priv).elim (d4 = [])
      (fun k => C.dh k p.theirBaseKey = some d4) ∧ discontinuityBytes ++ d1 ++ d2 ++ d3 ++ d4 = secrets := by
    cases hk : p.ourOneTimePreKey with
    | none => rw [hk] at h; exact ⟨[], rfl, Except.ok.inj h⟩
    | some k =>
      rw [hk] at h
      obtain ⟨d4, h4, h⟩ := bind_eq_ok.1 h
      exact ⟨d4, calc_dh h4, Except.ok.inj h⟩
  have e : Kdf.v3.deriveSecrets secrets TEXT_INFO 64 = Spec.hkdf [] secrets Spec.textInfo 64 := by
    have : TEXT_INFO = Spec.textInfo := by decide
    rw [this]
    exact (C11_library_sizes hlen _ _ _).2.1
  have hl : (Kdf.v3.deriveSecrets secrets TEXT_INFO 64).length = 64 := C11_length hlen _ _ _ _ _
  refine ⟨Spec.hkdf [] secrets Spec.textInfo 64, ⟨d1, d2, d3, d4, calc_dh h1, calc_dh h2, calc_dh h3, h4, ?_⟩, ?_, ?_⟩
  · rw [← h]; rfl
  · rw [← e]; unfold setupRoot calculateDerivedKeys; simp only; rw [split2_sizes _ hl]
  · rw [← e]; unfold setupChain calculateDerivedKeys; simp only; rw [split2_sizes _ hl]

theorem alice_exact (hlen : ∀ k m, (C.hmac k m).length = 32) {p : AliceParameters} {seed : Bytes} {s : SessionState}
    (h : initializeSessionAsAlice {} p seed = .ok s) :
    ∃ okm secret, SetupMaterial p.ourIdentityKey.priv p.ourBaseKey.priv p.theirIdentityKey p.theirSignedPreKey
        p.theirOneTimePreKey okm ∧ C.dh (C.genPriv seed) p.theirRatchetKey = some secret ∧
      s = initiatorState p.ourIdentityKey.pub p.theirIdentityKey okm p.theirRatchetKey seed secret := by
  obtain ⟨secrets, rk', ck', h1, h2, h3⟩ := initAlice_ok h
  obtain ⟨okm, m1, m2, m3⟩ := secrets_material hlen h1
  have hroot : (calculateDerivedKeys secrets).1 = ⟨.v3, okm.take 32⟩ := by rw [← m2]; rfl
  rw [hroot, createChain_v3 hlen] at h2
  split at h2
  · cases h2
  · rename_i secret hs
    obtain ⟨e1, e2⟩ := Prod.mk.inj (Except.ok.inj h2)
    injection e1 with _ e1
    injection e2 with _ e2 _
    refine ⟨okm, secret, m1, hs, ?_⟩
    have m3 : (calculateDerivedKeys secrets).2.key = _ := m3
    rw [h3, m3, ← e1, ← e2]
    rfl

theorem bob_exact (hlen : ∀ k m, (C.hmac k m).length = 32) {p : BobParameters} {s : SessionState}
    (h : initializeSessionAsBob {} p = .ok s) :
    ∃ okm, AnswerMaterial p.ourIdentityKey.priv p.ourSignedPreKey.priv (p.ourOneTimePreKey.map KeyPair.priv)
        p.theirIdentityKey p.theirBaseKey okm ∧
      s = answererState p.ourIdentityKey.pub p.theirIdentityKey okm p.ourRatchetKey := by
  obtain ⟨secrets, h1, h3⟩ := initBob_ok h
  obtain ⟨okm, m1, m2, m3⟩ := bob_material hlen h1
  have m2 : (calculateDerivedKeys secrets).1.key = _ := m2
  have m3 : (calculateDerivedKeys secrets).2.key = _ := m3
  refine ⟨okm, m1, ?_⟩
  rw [h3, m2, m3]
  rfl

theorem exchange_exact (hlen : ∀ k m, (C.hmac k m).length = 32) {p : SymmetricParameters} {seed : Bytes}
    {s : SessionState} (h : initializeSession {} p seed = .ok s) :
    Exchanged p.ourIdentityKey p.ourBaseKey p.ourRatchetKey p.theirIdentityKey p.theirBaseKey p.theirRatchetKey seed s := by
  rcases initSession_ok h with ⟨hlt, h1⟩ | ⟨hlt, h1⟩
  · obtain ⟨okm, secret, m1, m2, rfl⟩ := alice_exact hlen h1
    exact .initiator ((pubLt_iff hlt).1 rfl) m1 m2
  · obtain ⟨okm, m1, rfl⟩ := bob_exact hlen h1
    refine .answerer ?_ m1
    intro hs
    have := (pubLt_iff hlt).2 hs
    cases this

omit C in
theorem archived_exact {w : World} {a : Address} (hl : ∀ r, w.sessions a = some r → r.previousStates.length ≤ 40)
    (s : SessionState) :
    withNewSession (w.sessions a) s ((archiveUnlessFresh (w.loadSession a)).setState s) := by
  refine ⟨rfl, ?_⟩
  unfold World.loadSession
  cases hr : w.sessions a with
  | none => rfl
  | some r =>
    show (if (r.sessionState :: r.previousStates).length > 40 then _ else _) = (r.sessionState :: r.previousStates).take 40
    have := hl r hr
    split
    · rename_i h
      rw [List.dropLast_eq_take]
      congr 1
      simp only [List.length_cons] at h ⊢
      omega
    · rename_i h
      rw [List.take_of_length_le (by omega)]

/-! ## The theorems -/

/-- `C56_bundle` for any stores whose record at this address is within the limit of archived states. -/
theorem bundle_exact (hlen : ∀ k m, (C.hmac k m).length = 32) (w : World) (a : Address)
    (hl : ∀ r, w.sessions a = some r → r.previousStates.length ≤ 40)
    (b : PreKeyBundle) (baseSeed ratchetSeed : Bytes)
    (h : (processPreKeyBundle (w) a b baseSeed ratchetSeed).result = .ok ()) :
    ∃ spk okm secret new,
      ∃ (localReg remoteReg : Nat) (preKeyId : Option Nat), b.signedPreKey = some spk ∧
      SetupMaterial w.identityKeyPair.priv (C.genPriv baseSeed) b.identityKey spk b.preKey okm ∧
      C.dh (C.genPriv ratchetSeed) spk = some secret ∧
      w.registrationId = (localReg : Int) ∧ b.registrationId = (remoteReg : Int) ∧
      (b.preKey = none → preKeyId = none) ∧
      (∀ k, b.preKey = some k → ∃ n : Nat, b.preKeyId = n ∧ preKeyId = some n) ∧
      (processPreKeyBundle w a b baseSeed ratchetSeed).writes = [.session a new, .identity a.1 b.identityKey] ∧
      withNewSession (w.sessions a)
        { initiatorState w.identityKeyPair.pub b.identityKey okm spk ratchetSeed secret with
          pendingPreKey := some { preKeyId := preKeyId, signedPreKeyId := some b.signedPreKeyId,
                                  baseKey := some (5 :: C.genPub (C.genPriv baseSeed)) }
          localRegistrationId := some localReg
          remoteRegistrationId := some remoteReg
          aliceBaseKey := some (5 :: C.genPub (C.genPriv baseSeed)) } new := by
  cases hx : processPreKeyBundle w a b baseSeed ratchetSeed with
  | mk ws res =>
  rw [hx] at h
  have hx0 := hx
  unfold processPreKeyBundle at hx
  unfold Outcome.ofRes at hx
  split at hx
  · rename_i ws' u h0
    injection hx with hx1 hx2
    subst hx1
    split at h0
    · cases h0
    · split at h0
      · cases h0
      · rename_i spk hspk
        obtain ⟨ok, _, h1⟩ := bind_eq_ok.1 h0
        split at h1
        · cases h1
        · obtain ⟨s0, h3, h1⟩ := bind_eq_ok.1 h1
          obtain ⟨s1, h4, h1⟩ := bind_eq_ok.1 h1
          obtain ⟨s2, h5, h1⟩ := bind_eq_ok.1 h1
          obtain ⟨s3, h6, h1⟩ := bind_eq_ok.1 h1
          obtain ⟨h1, _⟩ := Prod.mk.inj (Except.ok.inj h1)
          subst h1
          rw [archive_load_state] at h3
          obtain ⟨okm, secret, m1, m2, rfl⟩ := alice_exact hlen h3
          obtain ⟨p, p1, p2, _, _, p3, p4, rfl⟩ := setUnack_ok h4
          obtain ⟨n1, q1, _, rfl⟩ := setLocalRegistrationId_ok h5
          obtain ⟨n2, q2, _, rfl⟩ := setRemoteRegistrationId_ok h6
          refine ⟨spk, okm, secret, _, n1, n2, p.preKeyId, hspk, m1, m2, q1, q2, ?_, ?_, rfl, ?_⟩
          · intro hn
            exact p3 (by rw [hn]; rfl)
          · intro k hk
            obtain ⟨n, e1, _, e2⟩ := p4 b.preKeyId (by rw [hk]; rfl)
            exact ⟨n, e1, e2⟩
          · obtain ⟨pi, pb, ps⟩ := p
            obtain rfl : ps = _ := p1
            obtain rfl : pb = _ := p2
            exact archived_exact hl _
  · injection hx with _ hx2
    rw [← hx2] at h
    cases h

/-- **C56, bundle.** After `processPreKeyBundle` the stored record holds exactly this new session: the initiator's state of
the key material of our identity and new base key against the bundle, with the prekey ids to announce, both registration ids
and the base key; the former sessions are archived; and the bundle's identity key is saved. -/
theorem C56_bundle (hlen : ∀ k m, (C.hmac k m).length = 32) (w0 : World) (hw : w0.NoSessions) (cs : List Call) (a : Address)
    (b : PreKeyBundle) (baseSeed ratchetSeed : Bytes)
    (h : (processPreKeyBundle (Call.after w0 cs) a b baseSeed ratchetSeed).result = .ok ()) :
    ∃ spk okm secret new, let w := Call.after w0 cs
      ∃ (localReg remoteReg : Nat) (preKeyId : Option Nat), b.signedPreKey = some spk ∧
      SetupMaterial w.identityKeyPair.priv (C.genPriv baseSeed) b.identityKey spk b.preKey okm ∧
      C.dh (C.genPriv ratchetSeed) spk = some secret ∧
      w.registrationId = (localReg : Int) ∧ b.registrationId = (remoteReg : Int) ∧
      (b.preKey = none → preKeyId = none) ∧
      (∀ k, b.preKey = some k → ∃ n : Nat, b.preKeyId = n ∧ preKeyId = some n) ∧
      (processPreKeyBundle w a b baseSeed ratchetSeed).writes = [.session a new, .identity a.1 b.identityKey] ∧
      withNewSession (w.sessions a)
        { initiatorState w.identityKeyPair.pub b.identityKey okm spk ratchetSeed secret with
          pendingPreKey := some { preKeyId := preKeyId, signedPreKeyId := some b.signedPreKeyId,
                                  baseKey := some (5 :: C.genPub (C.genPriv baseSeed)) }
          localRegistrationId := some localReg
          remoteRegistrationId := some remoteReg
          aliceBaseKey := some (5 :: C.genPub (C.genPriv baseSeed)) } new := by
  exact bundle_exact hlen _ a (fun r hr => (C22_bounded w0 hw cs a r hr).1) b baseSeed ratchetSeed h

omit C in
theorem signedPair_of {r : SignedPreKeyRecord} {k : KeyPair} (h : SignedPreKeyRecord.getKeyPair r = .ok k) :
    PairOf r.publicKey r.privateKey k := by
  unfold SignedPreKeyRecord.getKeyPair at h
  obtain ⟨p, h1, h⟩ := bind_eq_ok.1 h
  obtain rfl := Except.ok.inj h
  exact ⟨KeyOf_iff.2 h1, rfl⟩

omit C in
theorem oneTimePair_of {r : PreKeyRecord} {k : KeyPair} (h : PreKeyRecord.getKeyPair r = .ok k) :
    PairOf r.publicKey r.privateKey k := by
  unfold PreKeyRecord.getKeyPair at h
  obtain ⟨p, h1, h⟩ := bind_eq_ok.1 h
  obtain rfl := Except.ok.inj h
  exact ⟨KeyOf_iff.2 h1, rfl⟩

/-- `C56_prekey` for any stores whose record at this address is within the limits and of version 3. -/
theorem prekey_exact (hC : C.Lawful) (w : World) (a : Address)
    (hall : ∀ r, w.sessions a = some r → r.previousStates.length ≤ 40 ∧
      (∀ s ∈ states r, s.receiverChains.length ≤ 5) ∧ ∀ s ∈ states r, s.senderChain.isSome → s.sessionVersion = some 3)
    (m : PreKeyWhisperMessage) (seed : Bytes) (seeds : Nat → Bytes) (pt : Bytes)
    (hnew : ¬ alreadyKnown (w) a m)
    (h : (SessionCipher.decryptPkmsg (w) a m seed seeds).result = .ok pt) :
    ∃ signed spk otk okm new final,
      ∃ localReg : Nat, w.signedPreKeys m.signedPreKeyId = some signed ∧ PairOf signed.publicKey signed.privateKey spk ∧
      (m.preKeyId = none → otk = none) ∧
      (∀ i, m.preKeyId = some i → ∃ p k, w.preKeys i = some p ∧ PairOf p.publicKey p.privateKey k ∧ otk = some k) ∧
      AnswerMaterial w.identityKeyPair.priv spk.priv (otk.map KeyPair.priv) m.identityKey m.baseKey okm ∧
      w.registrationId = (localReg : Int) ∧
      withNewSession (w.sessions a)
        { answererState w.identityKeyPair.pub m.identityKey okm spk with
          localRegistrationId := some localReg
          remoteRegistrationId := some m.registrationId
          aliceBaseKey := some (5 :: m.baseKey) } new ∧
      ((Accepts new.sessionState m.message seed pt final.sessionState ∧ final.previousStates = new.previousStates) ∨
       ∃ k p, new.previousStates[k]? = some p ∧ Accepts p m.message (seeds k) pt final.sessionState ∧
         final.previousStates = new.sessionState :: new.previousStates.eraseIdx k) ∧
      (SessionCipher.decryptPkmsg w a m seed seeds).writes =
        [.identity a.1 m.identityKey, .session a final] ++ ((consumedId m.preKeyId).map Write.removePreKey).toList := by
  unfold SessionCipher.decryptPkmsg SessionBuilder.process at h ⊢
  simp only at h ⊢
  split at h
  · cases h
  · rename_i r1 un hres
    split at h
    · cases h
    · rename_i pt' r2 hd
      obtain rfl := Except.ok.inj h
      split at hres
      · cases hres
      · rename_i htrust
        split at hres
        · cases hres
        · rename_i y hp
          obtain rfl := Except.ok.inj hres
          rcases processV3_ok hp with ⟨hk, _⟩ | ⟨_, sr, kp, ot, s0, s1, s2, g1, g2, g3, g4, g5, g6, g7, g8, g9⟩
          · exact absurd ((loaded_known w a m).1 hk) hnew
          · simp only at g8 g9
            rw [archive_load_state] at g5
            obtain ⟨okm, m1, rfl⟩ := bob_exact hC.hmac_len g5
            obtain ⟨n1, q1, _, rfl⟩ := setLocalRegistrationId_ok g6
            obtain ⟨n2, q2, _, rfl⟩ := setRemoteRegistrationId_ok g7
            obtain rfl : n2 = m.registrationId := by omega
            have hwn : withNewSession (w.sessions a)
                { answererState w.identityKeyPair.pub m.identityKey okm kp with
                  localRegistrationId := some n1
                  remoteRegistrationId := some m.registrationId
                  aliceBaseKey := some (5 :: m.baseKey) } r1 := by
              rw [g8]
              exact archived_exact (fun r hr => (hall r hr).1) _
            have hun : un = consumedId m.preKeyId := by
              rw [g9]
              unfold consumedId
              cases m.preKeyId with
              | none => rfl
              | some i =>
                simp only
                by_cases hi : i = 0xFFFFFF
                · rw [if_pos hi, if_neg (fun h => h hi)]
                · rw [if_neg hi, if_pos (show i ≠ Medium.MAX_VALUE from hi)]
            refine ⟨sr, kp, ot, okm, r1, r2, n1, ?_, signedPair_of g2, g3, ?_, m1, q1, hwn, ?_, ?_⟩
            · unfold World.loadSignedPreKey at g1
              split at g1
              · rename_i hs
                rw [hs, Except.ok.inj g1]
              · cases g1
            · intro i hi
              obtain ⟨pk, k, e1, e2, e3⟩ := g4 i hi
              refine ⟨pk, k, ?_, oneTimePair_of e2, e3⟩
              unfold World.loadPreKey at e1
              split at e1
              · rename_i hs
                rw [hs, Except.ok.inj e1]
              · cases e1
            · have hstate : r1.sessionState.sessionVersion = some 3 ∧ r1.sessionState.receiverChains.length ≤ 5 := by
                rw [hwn.1]
                exact ⟨rfl, Nat.zero_le 5⟩
              have hprev : r1.previousStates.length ≤ 40 ∧ ∀ s ∈ r1.previousStates,
                  s.receiverChains.length ≤ 5 ∧ (s.senderChain.isSome → s.sessionVersion = some 3) := by
                rw [hwn.2]
                cases hr : w.sessions a with
                | none => exact ⟨Nat.zero_le _, fun s hs => by cases hs⟩
                | some r =>
                  refine ⟨by rw [List.length_take]; omega, fun s hs => ?_⟩
                  have := List.mem_of_mem_take hs
                  exact ⟨(hall r hr).2.1 s this, (hall r hr).2.2 s this⟩
              rcases dwsr_ok hd with ⟨s, g1, rfl⟩ | ⟨_, k, p, s, hk, g1, _, rfl⟩
              · left
                exact ⟨accepts_of_dwss hC hstate.1 hstate.2 g1, rfl⟩
              · right
                have hpm := List.mem_of_getElem? hk
                have hsc := (SessionCipher.dwss_ok g1).1
                refine ⟨k, p, hk, accepts_of_dwss hC ((hprev.2 p hpm).2 hsc) (hprev.2 p hpm).1 g1, ?_⟩
                have hpos := (List.getElem?_eq_some_iff.1 hk).1
                have hle := List.length_eraseIdx_of_lt hpos
                show (if (r1.sessionState :: r1.previousStates.eraseIdx k).length > 40 then _ else _) = _
                rw [if_neg (by rw [List.length_cons, hle]; omega)]
            · rw [if_neg htrust, hun]
              rfl

/-- **C56, prekey message.** A prekey message with a base key not seen before, once read: the answering side's state of the
key material of our identity and the stored prekeys it names against its keys is created, the former sessions are archived,
and the message is accepted by the new state (or else by an archived one).  The sender's identity key is saved, the record is
written, and then the one-time prekey is removed. -/
theorem C56_prekey (hC : C.Lawful) (w0 : World) (hw : w0.NoSessions) (cs : List Call) (a : Address)
    (m : PreKeyWhisperMessage) (seed : Bytes) (seeds : Nat → Bytes) (pt : Bytes)
    (hnew : ¬ alreadyKnown (Call.after w0 cs) a m)
    (h : (SessionCipher.decryptPkmsg (Call.after w0 cs) a m seed seeds).result = .ok pt) :
    ∃ signed spk otk okm new final, let w := Call.after w0 cs
      ∃ localReg : Nat, w.signedPreKeys m.signedPreKeyId = some signed ∧ PairOf signed.publicKey signed.privateKey spk ∧
      (m.preKeyId = none → otk = none) ∧
      (∀ i, m.preKeyId = some i → ∃ p k, w.preKeys i = some p ∧ PairOf p.publicKey p.privateKey k ∧ otk = some k) ∧
      AnswerMaterial w.identityKeyPair.priv spk.priv (otk.map KeyPair.priv) m.identityKey m.baseKey okm ∧
      w.registrationId = (localReg : Int) ∧
      withNewSession (w.sessions a)
        { answererState w.identityKeyPair.pub m.identityKey okm spk with
          localRegistrationId := some localReg
          remoteRegistrationId := some m.registrationId
          aliceBaseKey := some (5 :: m.baseKey) } new ∧
      ((Accepts new.sessionState m.message seed pt final.sessionState ∧ final.previousStates = new.previousStates) ∨
       ∃ k p, new.previousStates[k]? = some p ∧ Accepts p m.message (seeds k) pt final.sessionState ∧
         final.previousStates = new.sessionState :: new.previousStates.eraseIdx k) ∧
      (SessionCipher.decryptPkmsg w a m seed seeds).writes =
        [.identity a.1 m.identityKey, .session a final] ++ ((consumedId m.preKeyId).map Write.removePreKey).toList := by
  have hall : ∀ r, (Call.after w0 cs).sessions a = some r → r.previousStates.length ≤ 40 ∧
      (∀ s ∈ states r, s.receiverChains.length ≤ 5) ∧ ∀ s ∈ states r, s.senderChain.isSome → s.sessionVersion = some 3 := by
    intro r hr
    have hv := reachable_all version_inv w0 hw cs a r hr
    refine ⟨(C22_bounded w0 hw cs a r hr).1, (C22_bounded w0 hw cs a r hr).2, ?_⟩
    intro s hs
    rcases List.mem_cons.1 hs with rfl | hs
    · exact hv.1
    · exact hv.2 s hs
  exact prekey_exact hC _ a hall m seed seeds pt hnew h

theorem pendingKeys_of {s : SessionState} {p : PendingKeyExchangeS} {ik bk rk : KeyPair}
    (hp : s.pendingKeyExchange = some p) (h1 : getPendingKeyExchangeIdentityKey s = .ok ik)
    (h2 : getPendingKeyExchangeBaseKey s = .ok bk) (h3 : getPendingKeyExchangeRatchetKey s = .ok rk) :
    PendingKeys p ik bk rk := by
  have hd : SessionState.pendingKED s = p := by
    unfold SessionState.pendingKED
    rw [hp]
    rfl
  unfold getPendingKeyExchangeIdentityKey at h1
  unfold getPendingKeyExchangeBaseKey at h2
  unfold getPendingKeyExchangeRatchetKey at h3
  rw [hd] at h1 h2 h3
  obtain ⟨_, p1, e1⟩ := bind_eq_ok.1 h1
  obtain ⟨_, p2, e2⟩ := bind_eq_ok.1 h2
  obtain ⟨_, p3, e3⟩ := bind_eq_ok.1 h3
  obtain rfl := Except.ok.inj e1
  obtain rfl := Except.ok.inj e2
  obtain rfl := Except.ok.inj e3
  exact ⟨⟨KeyOf_iff.2 p1, rfl⟩, ⟨KeyOf_iff.2 p2, rfl⟩, ⟨KeyOf_iff.2 p3, rfl⟩⟩

omit C in
theorem pending_loaded (w : World) (a : Address) :
    (w.loadSession a).sessionState.pendingKeyExchange = Spec.pendingOf (w.sessions a) := by
  unfold World.loadSession Spec.pendingOf
  cases w.sessions a <;> rfl

/-- **C56, key exchange.** Whenever processing a key exchange message writes anything, it writes the record with exactly the
state that the exchange creates, and saves the identity key of the message.  Our key pairs are those of the pending
exchange, if there is one; without one a request is answered with our identity and two new pairs.  A response is only
processed if its sequence number is that of the pending exchange. -/
theorem C56_exchange (hlen : ∀ k m, (C.hmac k m).length = 32) (w0 : World) (hw : w0.NoSessions) (cs : List Call)
    (a : Address) (m : KeyExchangeMessage) (rnd : InitiateRand)
    (h : (processKeyExchangeMessage (Call.after w0 cs) a m rnd).writes ≠ []) :
    ∃ identity base ratchet s new, let w := Call.after w0 cs
      (match Spec.pendingOf (w.sessions a) with
        | none => m.flags % 2 = 1 ∧ identity = w.identityKeyPair ∧
            base = ⟨C.genPub (C.genPriv rnd.baseSeed), C.genPriv rnd.baseSeed⟩ ∧
            ratchet = ⟨C.genPub (C.genPriv rnd.ratchetSeed), C.genPriv rnd.ratchetSeed⟩
        | some p => PendingKeys p identity base ratchet ∧ (m.flags % 2 = 1 ∨ p.sequence.getD 0 = m.sequence)) ∧
      Exchanged identity base ratchet m.identityKey m.baseKey m.ratchetKey rnd.sendSeed s ∧
      withNewSession (w.sessions a) s new ∧
      (processKeyExchangeMessage w a m rnd).writes = [.session a new, .identity a.1 m.identityKey] := by
  have hl : ∀ r, (Call.after w0 cs).sessions a = some r → r.previousStates.length ≤ 40 :=
    fun r hr => (C22_bounded w0 hw cs a r hr).1
  generalize Call.after w0 cs = w at h hl
  have hpl := pending_loaded w a
  unfold processKeyExchangeMessage at h ⊢
  simp only at h ⊢
  split at h
  · exact absurd rfl h
  rename_i htr
  rw [if_neg htr]
  split at h
  · rename_i hini
    have hodd : m.flags % 2 = 1 := by
      unfold KeyExchangeMessage.isInitiate KeyExchangeMessage.INITIATE_FLAG at hini
      rw [Nat.and_one_is_mod] at hini
      have h2 := Nat.mod_two_eq_zero_or_one m.flags
      rcases h2 with h2 | h2
      · rw [h2] at hini; cases hini
      · exact h2
    rw [if_pos hini]
    unfold processInitiate at h ⊢
    cases hs : processInitiateState w a m rnd with
    | error e => rw [hs] at h; exact absurd rfl h
    | ok y =>
      clear h
      obtain ⟨r, flags, p⟩ := y
      unfold processInitiateState at hs
      obtain ⟨ok, _, hs⟩ := bind_eq_ok.1 hs
      split at hs
      · cases hs
      dsimp only at hs
      split at hs
      · rename_i hp
        simp only [ok_bind] at hs
        obtain ⟨s, h3, hs⟩ := bind_eq_ok.1 hs
        obtain ⟨u1, u2⟩ := Prod.mk.inj (Except.ok.inj hs)
        obtain ⟨u3, u4⟩ := Prod.mk.inj u2
        subst u1 u3 u4
        rw [archive_load_state] at h3
        have hx := exchange_exact hlen h3
        refine ⟨_, _, _, s, _, ?_, hx, archived_exact hl s, rfl⟩
        unfold hasPendingKeyExchange at hp
        rw [hpl] at hp
        cases hq : Spec.pendingOf (w.sessions a) with
        | none => exact ⟨hodd, rfl, rfl, rfl⟩
        | some q => rw [hq] at hp; cases hp
      · rename_i hp
        obtain ⟨ik, q1, hs⟩ := bind_eq_ok.1 hs
        obtain ⟨bk, q2, hs⟩ := bind_eq_ok.1 hs
        obtain ⟨rk, q3, hs⟩ := bind_eq_ok.1 hs
        simp only [ok_bind] at hs
        obtain ⟨s, h3, hs⟩ := bind_eq_ok.1 hs
        obtain ⟨u1, u2⟩ := Prod.mk.inj (Except.ok.inj hs)
        obtain ⟨u3, u4⟩ := Prod.mk.inj u2
        subst u1 u3 u4
        rw [archive_load_state] at h3
        have hx := exchange_exact hlen h3
        refine ⟨_, _, _, s, _, ?_, hx, archived_exact hl s, rfl⟩
        unfold hasPendingKeyExchange at hp
        rw [hpl] at hp
        cases hq : Spec.pendingOf (w.sessions a) with
        | none => rw [hq] at hp; exact absurd rfl hp
        | some q => exact ⟨pendingKeys_of (by rw [hpl, hq]) q1 q2 q3, .inl hodd⟩
  · rename_i hini
    rw [if_neg hini]
    obtain ⟨x, hx⟩ := List.exists_mem_of_ne_nil _ h
    obtain ⟨_, hp, hsq, p, s, h3, k1, k2, k3, e1, e2, e3, hwr⟩ := processResponse_writes hx
    have hx := exchange_exact hlen h3
    rw [e1, e2, e3] at hx
    refine ⟨_, _, _, s, _, ?_, hx, archived_exact hl s, hwr⟩
    unfold hasPendingKeyExchange at hp
    rw [hpl] at hp
    cases hq : Spec.pendingOf (w.sessions a) with
    | none => rw [hq] at hp; cases hp
    | some q =>
      have hpk := hpl.trans hq
      refine ⟨pendingKeys_of hpk k3 k1 k2, .inr ?_⟩
      unfold getPendingKeyExchangeSequence SessionState.pendingKED at hsq
      rw [hpk] at hsq
      exact hsq

/-- **C56, request.** Starting a key exchange only records what is pending: the sequence number drawn, plus one, and our
identity and two new key pairs.  The sessions in the record stay as they are. -/
theorem C56_request (w : World) (a : Address) (n : Nat) (baseSeed ratchetSeed sigRand : Bytes)
    (msg : KeyExchangeMessage) (h : (processInitKeyExchangeMessage w a n baseSeed ratchetSeed sigRand).result = .ok msg) :
    ∃ (old new : SessionRecord) (pending : PendingKeyExchangeS), old.fresh = (w.sessions a).isNone ∧
      (match w.sessions a with
        | none => old.sessionState = {} ∧ old.previousStates = []
        | some r => old.sessionState = r.sessionState ∧ old.previousStates = r.previousStates) ∧
      new = { old with sessionState := { old.sessionState with pendingKeyExchange := some pending } } ∧
      pending =
        { sequence := some (n + 1)
          localBaseKey := some (5 :: C.genPub (C.genPriv baseSeed)), localBaseKeyPrivate := some (C.genPriv baseSeed)
          localRatchetKey := some (5 :: C.genPub (C.genPriv ratchetSeed))
          localRatchetKeyPrivate := some (C.genPriv ratchetSeed)
          localIdentityKey := some (5 :: w.identityKeyPair.pub)
          localIdentityKeyPrivate := some w.identityKeyPair.priv } ∧
      (processInitKeyExchangeMessage w a n baseSeed ratchetSeed sigRand).writes = [.session a new] := by
  refine ⟨w.loadSession a, _, _, ?_, ?_, rfl, rfl, ?_⟩
  · unfold World.loadSession; cases w.sessions a <;> rfl
  · unfold World.loadSession; cases w.sessions a <;> exact ⟨rfl, rfl⟩
  · unfold processInitKeyExchangeMessage at h ⊢
    simp only at h ⊢
    split at h
    · cases h
    · rename_i sig r hs
      obtain ⟨sig', _, hs⟩ := bind_eq_ok.1 hs
      obtain ⟨s, h1, hs⟩ := bind_eq_ok.1 hs
      obtain ⟨rfl, rfl⟩ := Prod.mk.inj (Except.ok.inj hs)
      obtain ⟨_, rfl⟩ := setPending_ok h1
      rfl

end

section
attribute [local instance] toy
open Example Spec

/-- `C56_bundle`: Alice processes Bob's bundle, with nothing stored and again with a session stored; the second time the
first session is archived. -/
example : (SessionBuilder.processPreKeyBundle alice0 bobAddr bobBundle (key 41) (key 42)).result = .ok () ∧
    (SessionBuilder.processPreKeyBundle alice2 bobAddr bobBundle (key 43) (key 44)).result = .ok () ∧
    ((((SessionBuilder.processPreKeyBundle alice2 bobAddr bobBundle (key 43) (key 44)).final alice2).sessions bobAddr).map
      fun r => (r.sessionState.aliceBaseKey, r.previousStates.length)) = some (some (5 :: key 43), 1) := by decide +kernel

/-- `C56_prekey`: Bob reads Alice's first message, which names a one-time prekey. -/
example : ¬ alreadyKnown bob0 aliceAddr firstPk ∧
    (SessionCipher.decryptPkmsg bob0 aliceAddr firstPk (key 51) (fun _ => key 52)).result = .ok [104, 105] ∧
    (SessionCipher.decryptPkmsg bob0 aliceAddr firstPk (key 51) (fun _ => key 52)).writes.length = 3 := by
  refine ⟨?_, by decide +kernel, by decide +kernel⟩
  rintro ⟨r, hr, _⟩
  cases hr

/-- `C56_request`, `C56_exchange`: Alice asks, Bob answers, Alice processes the answer; and of the two base keys Alice's is
the smaller, so that both roles occur. -/
example : keAsk.result.toOption.isSome ∧
    (SessionBuilder.processKeyExchangeMessage bob0 aliceAddr keAskMsg keRand).writes ≠ [] ∧
    (SessionBuilder.processKeyExchangeMessage keAlice1 bobAddr keAnswerMsg ⟨key 81, key 82, key 83, key 84⟩).writes ≠ [] ∧
    keAskMsg.flags % 2 = 1 ∧ keAnswerMsg.flags % 2 = 0 := by
  refine ⟨by decide +kernel, ?_, ?_, by decide +kernel, by decide +kernel⟩
  · intro h
    have : (SessionBuilder.processKeyExchangeMessage bob0 aliceAddr keAskMsg keRand).writes.length = 2 := by decide +kernel
    rw [h] at this
    cases this
  · intro h
    have : (SessionBuilder.processKeyExchangeMessage keAlice1 bobAddr keAnswerMsg
      ⟨key 81, key 82, key 83, key 84⟩).writes.length = 2 := by decide +kernel
    rw [h] at this
    cases this

example : SmallerKey keAskMsg.baseKey keAnswerMsg.baseKey ∧ ¬ SmallerKey keAnswerMsg.baseKey keAskMsg.baseKey := by
  constructor
  · exact ⟨0, by decide, by decide +kernel, by intro j hj; cases hj⟩
  · intro h
    have : Curve.pubLt keAnswerMsg.baseKey keAskMsg.baseKey = .ok false := by decide +kernel
    exact absurd ((pubLt_iff this).2 h) (by decide)

end
end Axolotl
