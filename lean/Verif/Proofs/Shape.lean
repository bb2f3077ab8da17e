import Verif.Proofs.KeySchedule

/-! The exact session states that the setup functions and decryption produce. -/

namespace Axolotl
section
variable [C : Crypto]
open SessionState SessionBuilder

/-- A state right after `initializeSessionAsAlice`. -/
def aliceState (p : AliceParameters) (ck : Bytes) (kp : KeyPair) (rk' ck' : Bytes) : SessionState :=
  { sessionVersion := some 3
    remoteIdentityPublic := some (Curve.serializePoint p.theirIdentityKey)
    localIdentityPublic := some (Curve.serializePoint p.ourIdentityKey.pub)
    receiverChains := [mkChain p.theirRatchetKey ⟨.v3, ck, 0⟩]
    senderChain := some (newSender {} kp ⟨.v3, ck', 0⟩)
    rootKey := some rk' }

theorem initAlice_ok {p : AliceParameters} {seed : Bytes} {s : SessionState}
    (h : RatchetingSession.initializeSessionAsAlice {} p seed = .ok s) :
    ∃ secrets rk' ck', RatchetingSession.aliceSecrets p = .ok secrets ∧
      RootKey.createChain (RatchetingSession.calculateDerivedKeys secrets).1 p.theirRatchetKey
        (Curve.generateKeyPair seed) = .ok (⟨.v3, rk'⟩, ⟨.v3, ck', 0⟩) ∧
      s = aliceState p
        (RatchetingSession.calculateDerivedKeys secrets).2.key (Curve.generateKeyPair seed) rk' ck' := by
  unfold RatchetingSession.initializeSessionAsAlice at h
  simp only at h
  obtain ⟨secrets, h1, h⟩ := bind_eq_ok.1 h
  obtain ⟨⟨⟨kdf, rk'⟩, ⟨kdf', ck', i⟩⟩, h2, h⟩ := bind_eq_ok.1 h
  obtain ⟨sec, _, e1, e2, e3⟩ := RootKey.createChain_ok h2
  simp only [RatchetingSession.calculateDerivedKeys] at e1 e2 e3
  subst e1; subst e2; subst e3
  refine ⟨secrets, rk', ck', h1, h2, ?_⟩
  rw [addReceiverChain_eq (by simp [RatchetingSession.calculateDerivedKeys]), ok_bind,
    setSenderChain_eq (by simp), ok_bind] at h
  replace h := Except.ok.inj h
  rw [← h]
  rfl

/-- A state right after `initializeSessionAsBob`. -/
def bobState (p : BobParameters) (rk ck : Bytes) : SessionState :=
  { sessionVersion := some 3
    remoteIdentityPublic := some (Curve.serializePoint p.theirIdentityKey)
    localIdentityPublic := some (Curve.serializePoint p.ourIdentityKey.pub)
    senderChain := some (newSender {} p.ourRatchetKey ⟨.v3, ck, 0⟩)
    rootKey := some rk }

theorem initBob_ok {p : BobParameters} {s : SessionState}
    (h : RatchetingSession.initializeSessionAsBob {} p = .ok s) :
    ∃ secrets, RatchetingSession.bobSecrets p = .ok secrets ∧
      s = bobState p (RatchetingSession.calculateDerivedKeys secrets).1.key
        (RatchetingSession.calculateDerivedKeys secrets).2.key := by
  unfold RatchetingSession.initializeSessionAsBob at h
  simp only at h
  obtain ⟨secrets, h1, h⟩ := bind_eq_ok.1 h
  refine ⟨secrets, h1, ?_⟩
  rw [setSenderChain_eq (by simp [RatchetingSession.calculateDerivedKeys]), ok_bind] at h
  replace h := Except.ok.inj h
  rw [← h]
  rfl

theorem initSession_ok {p : SymmetricParameters} {seed : Bytes} {s : SessionState}
    (h : RatchetingSession.initializeSession {} p seed = .ok s) :
    (Curve.pubLt p.ourBaseKey.pub p.theirBaseKey = .ok true ∧
      RatchetingSession.initializeSessionAsAlice {}
      { ourBaseKey := p.ourBaseKey, ourIdentityKey := p.ourIdentityKey,
        theirRatchetKey := p.theirRatchetKey, theirIdentityKey := p.theirIdentityKey,
        theirSignedPreKey := p.theirBaseKey, theirOneTimePreKey := none } seed = .ok s) ∨
    (Curve.pubLt p.ourBaseKey.pub p.theirBaseKey = .ok false ∧
      RatchetingSession.initializeSessionAsBob {}
      { ourIdentityKey := p.ourIdentityKey, ourRatchetKey := p.ourRatchetKey,
        ourSignedPreKey := p.ourBaseKey, ourOneTimePreKey := none,
        theirBaseKey := p.theirBaseKey, theirIdentityKey := p.theirIdentityKey } = .ok s) := by
  unfold RatchetingSession.initializeSession RatchetingSession.isAlice at h
  obtain ⟨b, hb, h⟩ := bind_eq_ok.1 h
  cases b with
  | true => left; exact ⟨hb, h⟩
  | false => right; exact ⟨hb, h⟩

omit C in
theorem setLocalRegistrationId_ok {s s' : SessionState} {i : Int} (h : setLocalRegistrationId s i = .ok s') :
    ∃ n : Nat, i = (n : Int) ∧ n < 2 ^ 32 ∧ s' = { s with localRegistrationId := some n } := by
  unfold setLocalRegistrationId at h
  obtain ⟨n, hn, h⟩ := bind_eq_ok.1 h
  rw [chkU32_eq_ok] at hn
  exact ⟨n, hn.1, hn.2, (Except.ok.inj h).symm⟩

omit C in
theorem setRemoteRegistrationId_ok {s s' : SessionState} {i : Int} (h : setRemoteRegistrationId s i = .ok s') :
    ∃ n : Nat, i = (n : Int) ∧ n < 2 ^ 32 ∧ s' = { s with remoteRegistrationId := some n } := by
  unfold setRemoteRegistrationId at h
  obtain ⟨n, hn, h⟩ := bind_eq_ok.1 h
  rw [chkU32_eq_ok] at hn
  exact ⟨n, hn.1, hn.2, (Except.ok.inj h).symm⟩

omit C in
theorem setUnack_ok {s s' : SessionState} {pk : Option Int} {spk : Int} {bk : ECPub}
    (h : setUnacknowledgedPreKeyMessage s pk spk bk = .ok s') :
    ∃ p : PendingPreKeyS, p.signedPreKeyId = some spk ∧ p.baseKey = some (Curve.serializePoint bk) ∧
      -(2 ^ 31) ≤ spk ∧ spk < 2 ^ 31 ∧
      (pk = none → p.preKeyId = (s.pendingPreKey.getD {}).preKeyId) ∧
      (∀ i, pk = some i → ∃ n : Nat, i = n ∧ n < 2 ^ 32 ∧ p.preKeyId = some n) ∧
      s' = { s with pendingPreKey := some p } := by
  unfold setUnacknowledgedPreKeyMessage at h
  obtain ⟨n, hn, h⟩ := bind_eq_ok.1 h
  rw [chkI32_eq_ok] at hn
  obtain ⟨rfl, h1, h2⟩ := hn
  cases pk with
  | none =>
    simp only [ok_bind] at h
    replace h := Except.ok.inj h
    exact ⟨{ signedPreKeyId := some spk, baseKey := some (Curve.serializePoint bk),
             preKeyId := (s.pendingPreKey.getD {}).preKeyId }, rfl, rfl, h1, h2, fun _ => rfl,
           (fun i hi => nomatch hi), h.symm⟩
  | some i =>
    simp only at h
    obtain ⟨n, hn, h⟩ := bind_eq_ok.1 h
    simp only [ok_bind] at h
    rw [chkU32_eq_ok] at hn
    replace h := Except.ok.inj h
    refine ⟨{ signedPreKeyId := some spk, baseKey := some (Curve.serializePoint bk), preKeyId := some n },
      rfl, rfl, h1, h2, fun hh => by (cases hh), ?_, h.symm⟩
    intro i' hi'
    injection hi' with hi'
    subst hi'
    exact ⟨n, hn.1, hn.2, rfl⟩

/-- The pending key exchange stored by `setPendingKeyExchange`. -/
def pendingOf (q : Nat) (a b c : KeyPair) : PendingKeyExchangeS :=
  { sequence := some q,
    localBaseKey := some (Curve.serializePoint a.pub),
    localBaseKeyPrivate := some a.priv,
    localRatchetKey := some (Curve.serializePoint b.pub),
    localRatchetKeyPrivate := some b.priv,
    localIdentityKey := some (Curve.serializePoint c.pub),
    localIdentityKeyPrivate := some c.priv }

omit C in
theorem setPending_ok {s s' : SessionState} {q : Nat} {a b c : KeyPair}
    (h : setPendingKeyExchange s q a b c = .ok s') :
    q < 2 ^ 32 ∧ s' = { s with pendingKeyExchange := some (pendingOf q a b c) } := by
  unfold setPendingKeyExchange at h
  obtain ⟨n, hn, h⟩ := bind_eq_ok.1 h
  rw [chkU32_eq_ok] at hn
  obtain ⟨hn, hlt⟩ := hn
  have : q = n := by omega
  subst this
  exact ⟨hlt, (Except.ok.inj h).symm⟩

/-- What every freshly set up state looks like. -/
theorem created_shape {s : SessionState} (h : Created s) :
    s.sessionVersion = some 3 ∧ s.pendingKeyExchange = none ∧
    (∃ rid, s.remoteIdentityPublic = some (Curve.serializePoint rid)) ∧
    (∃ lid, s.localIdentityPublic = some (Curve.serializePoint lid)) ∧
    (∃ rk, s.rootKey = some rk) ∧
    (∃ kp ck, s.senderChain = some (newSender {} kp ⟨.v3, ck, 0⟩)) ∧
    (s.receiverChains = [] ∨ ∃ eph ck, s.receiverChains = [mkChain eph ⟨.v3, ck, 0⟩] ∧
      ∃ k sec, C.dh k eph = some sec) ∧
    s.previousCounter = none := by
  have alice : ∀ {p seed s0}, RatchetingSession.initializeSessionAsAlice {} p seed = .ok s0 → ∃ ck kp rk' ck',
      s0 = aliceState p ck kp rk' ck' ∧ ∃ k sec, C.dh k p.theirRatchetKey = some sec := by
    intro p seed s0 h0
    obtain ⟨secrets, rk', ck', _, h2, h3⟩ := initAlice_ok h0
    obtain ⟨sec, hs, _⟩ := RootKey.createChain_ok h2
    refine ⟨_, _, _, _, h3, (Curve.generateKeyPair seed).priv, sec, ?_⟩
    unfold Curve.calculateAgreement at hs
    split at hs
    · rename_i x hx; rw [hx]; exact congrArg some (Except.ok.inj hs)
    · cases hs
  have bob : ∀ {p s0}, RatchetingSession.initializeSessionAsBob {} p = .ok s0 → ∃ rk ck, s0 = bobState p rk ck := by
    intro p s0 h0
    obtain ⟨secrets, _, h3⟩ := initBob_ok h0
    exact ⟨_, _, h3⟩
  cases h with
  | bob h0 h1 h2 =>
    obtain ⟨rk, ck, rfl⟩ := bob h0
    obtain ⟨_, _, _, rfl⟩ := setLocalRegistrationId_ok h1
    obtain ⟨_, _, _, rfl⟩ := setRemoteRegistrationId_ok h2
    exact ⟨rfl, rfl, ⟨_, rfl⟩, ⟨_, rfl⟩, ⟨_, rfl⟩, ⟨_, _, rfl⟩, Or.inl rfl, rfl⟩
  | alice h0 h1 h2 h3 =>
    obtain ⟨ck, kp, rk', ck', rfl, hdh⟩ := alice h0
    obtain ⟨_, _, _, _, _, _, _, rfl⟩ := setUnack_ok h1
    obtain ⟨_, _, _, rfl⟩ := setLocalRegistrationId_ok h2
    obtain ⟨_, _, _, rfl⟩ := setRemoteRegistrationId_ok h3
    exact ⟨rfl, rfl, ⟨_, rfl⟩, ⟨_, rfl⟩, ⟨_, rfl⟩, ⟨_, _, rfl⟩, Or.inr ⟨_, _, rfl, hdh⟩, rfl⟩
  | sym h0 =>
    rcases initSession_ok h0 with ⟨_, h1⟩ | ⟨_, h1⟩
    · obtain ⟨ck, kp, rk', ck', rfl, hdh⟩ := alice h1
      exact ⟨rfl, rfl, ⟨_, rfl⟩, ⟨_, rfl⟩, ⟨_, rfl⟩, ⟨_, _, rfl⟩, Or.inr ⟨_, _, rfl, hdh⟩, rfl⟩
    · obtain ⟨rk, ck, rfl⟩ := bob h1
      exact ⟨rfl, rfl, ⟨_, rfl⟩, ⟨_, rfl⟩, ⟨_, rfl⟩, ⟨_, _, rfl⟩, Or.inl rfl, rfl⟩

/-! ## Decryption -/

/-- Everything but chains, root key and the two counters of a state is kept by decryption. -/
theorem dwss_same {s : SessionState} {m : WhisperMessage} {seed : Bytes} {pt : Bytes} {s' : SessionState}
    (h : SessionCipher.decryptWithSessionState s m seed = .ok (pt, s')) :
    Spec.SameSession s s' ∧ s'.pendingKeyExchange = s.pendingKeyExchange ∧ s'.pendingPreKey = none := by
  obtain ⟨_, _, ck, s1, mk, s2, _, _, h1, h2, _, _, _, _, h5⟩ := SessionCipher.dwss_ok h
  obtain ⟨c, j, _, h2⟩ := SessionCipher.gocmk_ok h2
  have hs2 : ∃ c', s2 = setChainAt s1 j c' := by
    rcases h2 with ⟨_, _, _, _, _, h⟩ | ⟨_, _, _, _, _, _, h⟩
    · exact ⟨_, h⟩
    · exact ⟨_, h⟩
  obtain ⟨c', rfl⟩ := hs2
  subst h5
  rcases SessionCipher.gocck_ok h1 with ⟨_, _, _, _, _, _, h⟩ | ⟨_, _, _, _, _, _, _, _, _, _, h⟩
  · subst h; exact ⟨⟨rfl, rfl, rfl, rfl, rfl, rfl⟩, rfl, rfl⟩
  · subst h; exact ⟨⟨rfl, rfl, rfl, rfl, rfl, rfl⟩, rfl, rfl⟩

/-- Encryption keeps everything but the sending chain key. -/
theorem ews_same {s : SessionState} {pt : Bytes} {c : Ciphertext} {s' : SessionState}
    (h : SessionCipher.encryptWithState s pt = .ok (c, s')) :
    Spec.SameSession s s' ∧ s'.pendingKeyExchange = s.pendingKeyExchange ∧ s'.pendingPreKey = s.pendingPreKey ∧
    s'.receiverChains = s.receiverChains ∧ s'.rootKey = s.rootKey ∧ s'.previousCounter = s.previousCounter := by
  obtain ⟨_, _, _, _, _, _, _, _, _, _, _, _, _, _, _, _, sc, _, h⟩ := SessionCipher.ews_ok h
  subst h
  exact ⟨⟨rfl, rfl, rfl, rfl, rfl, rfl⟩, rfl, rfl, rfl, rfl, rfl⟩

omit C in
/-- The length of the chain list never exceeds 5. -/
theorem pushChain_length {cs : List ChainS} {c : ChainS} (h : cs.length ≤ 5) : (pushChain cs c).length ≤ 5 := by
  unfold pushChain
  split
  · simp; omega
  · rename_i h'; omega

theorem dwss_chains {s : SessionState} {m : WhisperMessage} {seed : Bytes} {pt : Bytes} {s' : SessionState}
    (h : SessionCipher.decryptWithSessionState s m seed = .ok (pt, s')) (hl : s.receiverChains.length ≤ 5) :
    s'.receiverChains.length ≤ 5 := by
  obtain ⟨_, _, ck, s1, mk, s2, _, _, h1, h2, _, _, _, _, h5⟩ := SessionCipher.dwss_ok h
  obtain ⟨c, j, _, h2⟩ := SessionCipher.gocmk_ok h2
  have hs2 : ∃ c', s2 = setChainAt s1 j c' := by
    rcases h2 with ⟨_, _, _, _, _, h⟩ | ⟨_, _, _, _, _, _, h⟩
    · exact ⟨_, h⟩
    · exact ⟨_, h⟩
  obtain ⟨c', rfl⟩ := hs2
  subst h5
  rcases SessionCipher.gocck_ok h1 with ⟨_, _, _, _, _, _, h⟩ | ⟨_, _, _, _, _, _, _, _, _, _, h⟩
  · subst h
    show (List.set _ _ _).length ≤ 5
    rw [List.length_set]; exact hl
  · subst h
    show (List.set _ _ _).length ≤ 5
    rw [List.length_set]; exact pushChain_length hl

end
end Axolotl
