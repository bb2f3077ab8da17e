import Verif.Proofs.Steps
import Verif.Props.Hashing

/-! # C117: the steps of sending, reading and setting up, one by one -/

namespace Axolotl
section
variable [C : Crypto]
open Spec Logged Traced SessionState
namespace Work
open Fallible

theorem expandLoop_steps2 (prk info : Bytes) (n i : Nat) (mixin : Bytes) (rem : Nat) (hi : i + n < 128)
    (hm : mixin = if i = 0 then [] else hkdf2T prk info (i - 1)) :
    (expandLoop tracing prk info n i mixin rem).work =
      (List.range n).map fun j => .hmac prk ((if i + j = 0 then [] else hkdf2T prk info (i + j - 1)) ++ info ++ [UInt8.ofNat (i + j)]) := by
  induction n generalizing i mixin rem with
  | zero => rfl
  | succ n ih =>
    have he : Kdf.chrEncode (i % 256) = [UInt8.ofNat i] := by
      unfold Kdf.chrEncode
      rw [if_pos (by omega), Nat.mod_eq_of_lt (by omega)]
    unfold expandLoop
    rw [he, hm, work_ok (value_hmac _ _), work_ok (expandLoop_value ..), work_pure, List.append_nil, ih (i + 1) _ _ (by omega) ?_,
      List.range_succ_eq_map, List.map_cons, List.map_map]
    · have : ∀ j, i + 1 + j = i + (j + 1) := fun j => by omega
      simp only [this]
      rfl
    · cases i with
      | zero => rfl
      | succ i => rfl

theorem deriveSecrets_steps2 (ikm info salt : Bytes) {n : Nat} (hn : n ≤ 96) :
    (deriveSecrets tracing .v2 ikm info n salt).work = hkdfSteps2 salt ikm info n := by
  unfold deriveSecrets
  simp only
  rw [work_ok (value_hmac _ _)]
  have hd : (n + 31) / Kdf.HASH_OUTPUT_SIZE = (n + 31) / 32 := rfl
  rw [hd]
  have := expandLoop_steps2 (C.hmac (if salt = [] then List.replicate 32 0 else salt) ikm) info ((n + 31) / 32) 0 [] n (by omega) rfl
  simp only [Nat.zero_add] at this
  exact congrArg _ this

theorem getMessageKeys_steps2 {c : ChainKey} (hk : c.kdf = .v2) : (getMessageKeys tracing c).work = keySteps2 c.key := by
  unfold getMessageKeys
  rw [work_ok (value_hmac _ _), work_ok (deriveSecrets_value ..), work_pure, List.append_nil, hk, deriveSecrets_steps2 _ _ _ (by decide)]
  rfl

theorem macStep_of2 {m : WhisperMessage} {a b : ECPub} {k : Bytes} (hm : ¬ 3 ≤ m.messageVersion) {o : Op}
    (h : ∀ (fit : Bytes → ECPub → ECPub → Prop), fit k a b → ∀ earlier, MacFound fit m (earlier ++ [o])) : MacStep2 m k o := by
  obtain ⟨e, mk, a', b', body, mac, ⟨rfl, rfl, rfl⟩, h1, h2, _, h4⟩ := h (fun k' a' b' => k' = k ∧ a' = a ∧ b' = b) ⟨rfl, rfl, rfl⟩ []
  rw [if_neg hm] at h1 h4
  rw [List.nil_append] at h1 h4
  have he : e = [] := by
    have := congrArg List.length h1
    simp at this
    exact this
  subst he
  exact ⟨body, by simpa using h1, by rw [h2, h4]⟩

theorem tryPrevious_steps {r : SessionRecord} {m : WhisperMessage} {seeds : Nat → Bytes} {l : List SessionState} {i : Nat} {q : Bytes × SessionRecord}
    (h : (tryPrevious tracing r m seeds l i).value = .ok q) :
    ∃ earlier s j p, s ∈ l ∧ j < i + l.length ∧ SessionCipher.decryptWithSessionState s m (seeds j) = .ok p ∧
      (tryPrevious tracing r m seeds l i).work = earlier ++ (decryptWithSessionState tracing s m (seeds j)).work := by
  induction l generalizing i with
  | nil => cases h
  | cons p l ih =>
    unfold tryPrevious at h ⊢
    rw [work_ok (value_attempt _), work_attempt]
    rw [value_bind, value_attempt, bind_ok] at h
    rw [decryptWithSessionState_value] at h ⊢
    cases hd : SessionCipher.decryptWithSessionState p m (seeds i) with
    | ok x => exact ⟨[], p, i, x, List.mem_cons_self .., by simp, hd, by rw [List.nil_append]; exact List.append_nil _⟩
    | error e =>
      rw [hd] at h
      cases e
      case invalidMessage =>
        obtain ⟨e, s, j, x, h1, h2, h3, h4⟩ := ih h
        refine ⟨(decryptWithSessionState tracing p m (seeds i)).work ++ e, s, j, x, List.mem_cons_of_mem _ h1, ?_, h3, ?_⟩
        · rw [List.length_cons]; omega
        · rw [List.append_assoc, ← h4]
      all_goals cases h

theorem record_steps {r : SessionRecord} {m : WhisperMessage} {seed : Bytes} {seeds : Nat → Bytes} {q : Bytes × SessionRecord}
    (h : (decryptWithSessionRecord tracing r m seed seeds).value = .ok q) :
    (∃ p, SessionCipher.decryptWithSessionState r.sessionState m seed = .ok p ∧
      (decryptWithSessionRecord tracing r m seed seeds).work = (decryptWithSessionState tracing r.sessionState m seed).work) ∨
    ∃ earlier s j p, s ∈ r.previousStates ∧ j < r.previousStates.length ∧ SessionCipher.decryptWithSessionState s m (seeds j) = .ok p ∧
      (decryptWithSessionRecord tracing r m seed seeds).work = earlier ++ (decryptWithSessionState tracing s m (seeds j)).work := by
  unfold decryptWithSessionRecord at h ⊢
  rw [work_ok (value_attempt _), work_attempt]
  rw [value_bind, value_attempt, bind_ok] at h
  rw [decryptWithSessionState_value] at h ⊢
  cases hd : SessionCipher.decryptWithSessionState r.sessionState m seed with
  | ok x => exact .inl ⟨x, rfl, List.append_nil _⟩
  | error e =>
    rw [hd] at h
    cases e
    case invalidMessage =>
      obtain ⟨e, s, j, x, h1, h2, h3, h4⟩ := tryPrevious_steps h
      refine .inr ⟨(decryptWithSessionState tracing r.sessionState m seed).work ++ e, s, j, x, h1, by omega, h3, ?_⟩
      rw [List.append_assoc, ← h4]
    all_goals cases h

end Work

/-- **C117, sending**, in a version-3 session: these steps, in this order, and no others. -/
theorem C117_send (hC : C.Lawful) (w : World) (a : Address) (pt : Bytes) (c : Ciphertext) (s : SessionState) (k : Bytes)
    (h : (SessionCipher.encrypt w a pt).result = .ok c) (hs : s = (w.loadSession a).sessionState) (hk : k = Spec.sendKey s) (hv : s.sessionVersion = some 3) :
    ∃ o, callTrace w (.encrypt a pt) = keySteps k ++ cbcSteps (cipherKeyOf k) (ivOf k) pt c.inner.ciphertext ++ [o, .hmac k [2]] ∧
      CbcEncryption (cipherKeyOf k) (ivOf k) pt c.inner.ciphertext ∧
      MacStep c.inner s.localIdentityPublic s.remoteIdentityPublic (macKeyOf k) o := by
  have hlen := hC.hmac_len
  unfold callTrace
  simp only [Work.run, mapped_trace]
  unfold Work.encrypt
  unfold SessionCipher.encrypt at h
  simp only at h
  rw [outcome_trace]
  simp only
  rw [← hs] at h ⊢
  cases he : SessionCipher.encryptWithState s pt with
  | error e => rw [he] at h; cases h
  | ok r =>
    rw [he] at h
    cases h
    have hmap : ∀ g : Ciphertext × SessionState → List Write × Ciphertext,
        ((Work.encryptWithState tracing s pt) >>= fun r => pure (g r)).work = (Work.encryptWithState tracing s pt).work := fun g => mapped_trace _ g
    rw [hmap]
    unfold SessionCipher.encryptWithState at he
    obtain ⟨ck, h1, he⟩ := bind_eq_ok.1 he
    obtain ⟨rk, h2, he⟩ := bind_eq_ok.1 he
    obtain ⟨ct, h3, he⟩ := bind_eq_ok.1 he
    obtain ⟨l, h4, he⟩ := bind_eq_ok.1 he
    obtain ⟨rm, h5, he⟩ := bind_eq_ok.1 he
    obtain ⟨m, h6, he⟩ := bind_eq_ok.1 he
    obtain ⟨o, h7, h8, h9⟩ := Work.createWhisperMessage_trace hlen h6
    have hmv : m.messageVersion = 3 ∧ m.ciphertext = ct := by
      unfold WhisperMessage.create at h6
      obtain ⟨c, _, h6⟩ := bind_eq_ok.1 h6
      obtain ⟨pc, _, h6⟩ := bind_eq_ok.1 h6
      cases h6
      exact ⟨Work.getSessionVersion_three hv, rfl⟩
    have h1' := h1
    unfold SessionState.getSenderChainKey at h1'
    rw [createFor_three hv] at h1'
    have hck : ck.kdf = .v3 ∧ ck.key = k := by
      obtain rfl := Except.ok.inj h1'
      exact ⟨rfl, by rw [hk]; exact sent_with _⟩
    have hmk := getMessageKeys_v3 hlen ck hck.1
    rw [hck.2] at hmk
    have hcbc := aes_cbc hC h3
    have hst := Work.aesEncrypt_steps hC h3
    have hmac := Work.macStep_of (x := s.localIdentityPublic) (y := s.remoteIdentityPublic) (by rw [hmv.1]) (decodePoint_KeyOf h4) (decodePoint_KeyOf h5) h9
    rw [hmk] at hmac hcbc
    unfold Work.encryptWithState
    rw [work_ok ((value_lift _).trans h1), work_lift, work_ok (Work.getMessageKeys_value _), work_ok ((value_lift _).trans h2), work_lift]
    simp only
    rw [work_ok ((Work.aesEncrypt_value ..).trans h3), work_ok ((value_lift _).trans h4), work_lift,
      work_ok ((value_lift _).trans h5), work_lift, work_ok ((Work.createWhisperMessage_value ..).trans h6), h7, hst,
      Work.getMessageKeys_steps hck.1, hck.2, hmk]
    have fin : ∀ {r : Ciphertext × SessionState} (t : List Op), r.1.inner = m → t = [.hmac ck.key [2]] →
        ∃ o', [] ++ (keySteps k ++ ([] ++ (cbcSteps (cipherKeyOf k) (ivOf k) pt ct ++ ([] ++ ([] ++ ([o] ++ t)))))) =
            keySteps k ++ cbcSteps (cipherKeyOf k) (ivOf k) pt r.1.inner.ciphertext ++ [o', .hmac k [2]] ∧
          CbcEncryption (cipherKeyOf k) (ivOf k) pt r.1.inner.ciphertext ∧
          MacStep r.1.inner s.localIdentityPublic s.remoteIdentityPublic (macKeyOf k) o' := by
      intro r t hr ht
      rw [hr, hmv.2, ht, hck.2]
      exact ⟨o, by simp, hcbc, hmac⟩
    by_cases hu : s.hasUnacknowledgedPreKeyMessage
    · rw [if_pos hu] at he ⊢
      obtain ⟨it, g1, he⟩ := bind_eq_ok.1 he
      obtain ⟨pm, g2, he⟩ := bind_eq_ok.1 he
      obtain ⟨c, hc, he⟩ := bind_eq_ok.1 he
      cases hc
      obtain ⟨s', g3, he⟩ := bind_eq_ok.1 he
      cases he
      refine fin _ (preKey_create_message g2) ?_
      rw [work_ok ((value_lift _).trans g1), work_lift, work_ok ((value_lift _).trans g2), work_lift, work_ok (value_pure _), work_pure,
        work_ok (Work.getNextChainKey_value _), work_ok ((value_lift _).trans g3), work_lift, work_pure]
      rfl
    · rw [if_neg hu] at he ⊢
      obtain ⟨c, hc, he⟩ := bind_eq_ok.1 he
      cases hc
      obtain ⟨s', g3, he⟩ := bind_eq_ok.1 he
      cases he
      refine fin _ rfl ?_
      rw [work_ok (value_pure _), work_pure, work_ok (Work.getNextChainKey_value _), work_ok ((value_lift _).trans g3), work_lift, work_pure]
      rfl

/-- **C117, sending**, in a version-2 session: the same with the derivation of version 2, and a MAC without the identity keys. -/
theorem C117_send2 (hC : C.Lawful) (w : World) (a : Address) (pt : Bytes) (c : Ciphertext) (s : SessionState) (k : Bytes)
    (h : (SessionCipher.encrypt w a pt).result = .ok c) (hs : s = (w.loadSession a).sessionState) (hk : k = Spec.sendKey s) (hv : versionOf s = 2) :
    ∃ o, callTrace w (.encrypt a pt) = keySteps2 k ++ cbcSteps (cipherKeyOf2 k) (ivOf2 k) pt c.inner.ciphertext ++ [o, .hmac k [2]] ∧
      CbcEncryption (cipherKeyOf2 k) (ivOf2 k) pt c.inner.ciphertext ∧
      MacStep2 c.inner (macKeyOf2 k) o := by
  have hlen := hC.hmac_len
  unfold callTrace
  simp only [Work.run, mapped_trace]
  unfold Work.encrypt
  unfold SessionCipher.encrypt at h
  simp only at h
  rw [outcome_trace]
  simp only
  rw [← hs] at h ⊢
  cases he : SessionCipher.encryptWithState s pt with
  | error e => rw [he] at h; cases h
  | ok r =>
    rw [he] at h
    cases h
    have hmap : ∀ g : Ciphertext × SessionState → List Write × Ciphertext,
        ((Work.encryptWithState tracing s pt) >>= fun r => pure (g r)).work = (Work.encryptWithState tracing s pt).work := fun g => mapped_trace _ g
    rw [hmap]
    unfold SessionCipher.encryptWithState at he
    obtain ⟨ck, h1, he⟩ := bind_eq_ok.1 he
    obtain ⟨rk, h2, he⟩ := bind_eq_ok.1 he
    obtain ⟨ct, h3, he⟩ := bind_eq_ok.1 he
    obtain ⟨l, h4, he⟩ := bind_eq_ok.1 he
    obtain ⟨rm, h5, he⟩ := bind_eq_ok.1 he
    obtain ⟨m, h6, he⟩ := bind_eq_ok.1 he
    obtain ⟨o, h7, h8, h9⟩ := Work.createWhisperMessage_trace hlen h6
    have hmv : m.messageVersion = 2 ∧ m.ciphertext = ct := by
      unfold WhisperMessage.create at h6
      obtain ⟨c, _, h6⟩ := bind_eq_ok.1 h6
      obtain ⟨pc, _, h6⟩ := bind_eq_ok.1 h6
      cases h6
      exact ⟨Work.getSessionVersion_two hv, rfl⟩
    have h1' := h1
    unfold SessionState.getSenderChainKey at h1'
    rw [createFor_two hv] at h1'
    have hck : ck.kdf = .v2 ∧ ck.key = k := by
      obtain rfl := Except.ok.inj h1'
      exact ⟨rfl, by rw [hk]; exact sent_with _⟩
    have hmk := getMessageKeys_v2 hlen ck hck.1
    rw [hck.2] at hmk
    have hcbc := aes_cbc hC h3
    have hst := Work.aesEncrypt_steps hC h3
    have hmac := Work.macStep_of2 (by rw [hmv.1]; decide) h9
    rw [hmk] at hmac hcbc
    unfold Work.encryptWithState
    rw [work_ok ((value_lift _).trans h1), work_lift, work_ok (Work.getMessageKeys_value _), work_ok ((value_lift _).trans h2), work_lift]
    simp only
    rw [work_ok ((Work.aesEncrypt_value ..).trans h3), work_ok ((value_lift _).trans h4), work_lift,
      work_ok ((value_lift _).trans h5), work_lift, work_ok ((Work.createWhisperMessage_value ..).trans h6), h7, hst,
      Work.getMessageKeys_steps2 hck.1, hck.2, hmk]
    have fin : ∀ {r : Ciphertext × SessionState} (t : List Op), r.1.inner = m → t = [.hmac ck.key [2]] →
        ∃ o', [] ++ (keySteps2 k ++ ([] ++ (cbcSteps (cipherKeyOf2 k) (ivOf2 k) pt ct ++ ([] ++ ([] ++ ([o] ++ t)))))) =
            keySteps2 k ++ cbcSteps (cipherKeyOf2 k) (ivOf2 k) pt r.1.inner.ciphertext ++ [o', .hmac k [2]] ∧
          CbcEncryption (cipherKeyOf2 k) (ivOf2 k) pt r.1.inner.ciphertext ∧
          MacStep2 r.1.inner (macKeyOf2 k) o' := by
      intro r t hr ht
      rw [hr, hmv.2, ht, hck.2]
      exact ⟨o, by simp, hcbc, hmac⟩
    by_cases hu : s.hasUnacknowledgedPreKeyMessage
    · rw [if_pos hu] at he ⊢
      obtain ⟨it, g1, he⟩ := bind_eq_ok.1 he
      obtain ⟨pm, g2, he⟩ := bind_eq_ok.1 he
      obtain ⟨c, hc, he⟩ := bind_eq_ok.1 he
      cases hc
      obtain ⟨s', g3, he⟩ := bind_eq_ok.1 he
      cases he
      refine fin _ (preKey_create_message g2) ?_
      rw [work_ok ((value_lift _).trans g1), work_lift, work_ok ((value_lift _).trans g2), work_lift, work_ok (value_pure _), work_pure,
        work_ok (Work.getNextChainKey_value _), work_ok ((value_lift _).trans g3), work_lift, work_pure]
      rfl
    · rw [if_neg hu] at he ⊢
      obtain ⟨c, hc, he⟩ := bind_eq_ok.1 he
      cases hc
      obtain ⟨s', g3, he⟩ := bind_eq_ok.1 he
      cases he
      refine fin _ rfl ?_
      rw [work_ok (value_pure _), work_pure, work_ok (Work.getNextChainKey_value _), work_ok ((value_lift _).trans g3), work_lift, work_pure]
      rfl

/-- A message of version 3 is read by a state of version 3. -/
theorem read_version {s : SessionState} {m : WhisperMessage} {seed : Bytes} {p : Bytes × SessionState} (hm : m.messageVersion = 3)
    (h : SessionCipher.decryptWithSessionState s m seed = .ok p) : s.sessionVersion = some 3 := by
  have h := (SessionCipher.dwss_ok (pt := p.1) (s' := p.2) h).2.1
  rw [hm, versionOf_eq] at h
  exact Work.version_three h.symm

theorem record_read (hC : C.Lawful) {r : SessionRecord} {m : WhisperMessage} {seed : Bytes} {seeds : Nat → Bytes} {q : Bytes × SessionRecord}
    (hm : m.messageVersion = 3) (h : SessionCipher.decryptWithSessionRecord r m seed seeds = .ok q) :
    ReadSteps r.sessionState m seed (Work.decryptWithSessionRecord tracing r m seed seeds).work ∨
    ∃ earlier t s j, s ∈ r.previousStates ∧ j < r.previousStates.length ∧
      (Work.decryptWithSessionRecord tracing r m seed seeds).work = earlier ++ t ∧ ReadSteps s m (seeds j) t := by
  rcases Work.record_steps ((Work.decryptWithSessionRecord_value ..).trans h) with ⟨p, h1, h2⟩ | ⟨e, s, j, p, h1, h2, h3, h4⟩
  · rw [h2]
    exact .inl (Work.state_steps hC (read_version hm h1) h1)
  · exact .inr ⟨e, _, s, j, h1, h2, h4, Work.state_steps hC (read_version hm h3) h3⟩

/-- **C117, reading**: a version-3 message that is read is read in these steps, by the current state at once, or by an archived one after others were
tried. -/
theorem C117_read (hC : C.Lawful) (w : World) (a : Address) (m : WhisperMessage) (seed pt : Bytes) (seeds : Nat → Bytes)
    (h : (SessionCipher.decryptMsg w a m seed seeds).result = .ok pt) (hm : m.messageVersion = 3) :
    ReadSteps (w.loadSession a).sessionState m seed (callTrace w (.decryptMsg a m seed seeds)) ∨
    ∃ earlier t s j, s ∈ (w.loadSession a).previousStates ∧ j < (w.loadSession a).previousStates.length ∧
      callTrace w (.decryptMsg a m seed seeds) = earlier ++ t ∧ ReadSteps s m (seeds j) t := by
  unfold callTrace
  simp only [Work.run, mapped_trace]
  unfold Work.decryptMsg
  unfold SessionCipher.decryptMsg at h
  rw [outcome_trace]
  by_cases hc : w.containsSession a = true
  · rw [if_neg (by simp [hc])] at h ⊢
    cases hd : SessionCipher.decryptWithSessionRecord (w.loadSession a) m seed seeds with
    | error e => rw [hd] at h; cases h
    | ok q =>
      have hmap : ∀ g : Bytes × SessionRecord → List Write × Bytes,
          ((Work.decryptWithSessionRecord tracing (w.loadSession a) m seed seeds) >>= fun r => pure (g r)).work =
          (Work.decryptWithSessionRecord tracing (w.loadSession a) m seed seeds).work := fun g => mapped_trace _ g
      rw [hmap]
      exact record_read hC hm hd
  · rw [if_pos (by simp [hc])] at h
    cases h

/-- **C117, beginning a session**: the signature is checked, the base key is made, and the rest is `BeginSteps`. -/
theorem C117_bundle (hC : C.Lawful) (w : World) (a : Address) (b : PreKeyBundle) (s1 s2 : Bytes)
    (h : (SessionBuilder.processPreKeyBundle w a b s1 s2).result = .ok ()) :
    ∃ spk t, b.signedPreKey = some spk ∧ callTrace w (.processBundle a b s1 s2) =
        .verifySig b.identityKey (5 :: spk) b.signedPreKeySignature :: .genPriv s1 :: .genPub (C.genPriv s1) :: t ∧
      BeginSteps w.identityKeyPair.priv (C.genPriv s1) s2 b.identityKey spk b.preKey spk t := by
  have hv := Except.ok.inj ((Work.outcome_value _).symm.trans (Work.processPreKeyBundle_value (f := fun o => [o]) w a b s1 s2))
  unfold callTrace
  simp only [Work.run, mapped_trace]
  unfold Work.processPreKeyBundle
  rw [outcome_trace]
  rw [← hv] at h
  have h := Outcome.ofRes_ok h
  by_cases ht : w.isTrusted a.1 b.identityKey = true
  · rw [if_neg (by simp [ht])] at h ⊢
    cases hb : b.signedPreKey with
    | none => rw [hb] at h; cases h
    | some spk =>
      rw [hb] at h
      simp only at h ⊢
      obtain ⟨ok, e1, h, w1⟩ := Work.work_bind_ok h
      rw [w1]
      cases ok with
      | false => cases h
      | true =>
        obtain ⟨k, e2, h, w2⟩ := Work.work_bind_ok h
        rw [Work.generateKeyPair_value] at e2
        obtain rfl := Except.ok.inj e2
        obtain ⟨s, e3, h, w3⟩ := Work.work_bind_ok h
        have hb := Work.asAlice_steps hC e3
        refine ⟨spk, _, rfl, ?_, hb⟩
        rw [Work.verifySignature_trace]
        refine congrArg (_ :: ·) (w2.trans ?_)
        rw [w3, Work.work_lift_bind fun _ => Work.work_lift_bind fun _ => Work.work_lift_bind fun _ => work_pure _, List.append_nil]
        rfl
  · rw [if_pos (by simp [ht])] at h
    cases h

namespace Work

theorem process_steps {w : World} {a : Address} {m : PreKeyWhisperMessage} {x : SessionRecord × Option Nat}
    (h : (SessionBuilder.process w a (w.loadSession a) m).result = .ok x) :
    (knowsBaseKey (w.loadSession a) m.version m.baseKey ∧ (process tracing w a (w.loadSession a) m).work = []) ∨
    (NewSession w a m ∧ ∃ p, w.signedPreKeys m.signedPreKeyId = some p ∧
      AnswerSteps w.identityKeyPair.priv (p.privateKey.getD []) ((m.preKeyId.bind w.preKeys).map fun p => p.privateKey.getD []) m.identityKey m.baseKey
        (process tracing w a (w.loadSession a) m).work) := by
  unfold SessionBuilder.process at h
  unfold process
  by_cases ht : w.isTrusted a.1 m.identityKey = true
  · rw [if_neg (by simp [ht])] at h ⊢
    cases hp : SessionBuilder.processV3 w (w.loadSession a) m with
    | error e => rw [hp] at h; cases h
    | ok y =>
      have hv := (processV3_value (f := fun o => [o]) w (w.loadSession a) m).trans hp
      rw [work_ok (value_attempt _), work_attempt, hv]
      simp only
      rw [work_pure, List.append_nil]
      unfold processV3 at hv ⊢
      by_cases hk : (w.loadSession a).hasSessionState m.version (Curve.serializePoint m.baseKey) = true
      · rw [if_pos hk]
        exact .inl ⟨(hasSessionState_iff _ _ _).1 hk, rfl⟩
      · rw [if_neg hk] at hv ⊢
        refine .inr ⟨⟨ht, fun h => hk ((hasSessionState_iff _ _ _).2 h)⟩, ?_⟩
        obtain ⟨spk, hspk, hv, w1⟩ := work_bind_ok hv
        obtain ⟨kp, hkp, hv, w2⟩ := work_bind_ok hv
        rw [w1, w2, work_lift, work_lift]
        rw [value_lift] at hspk hkp
        have hspk : w.signedPreKeys m.signedPreKeyId = some spk := by
          unfold World.loadSignedPreKey at hspk
          split at hspk
          · rename_i h
            rw [h, Except.ok.inj hspk]
          · cases hspk
        have hkp : kp.priv = spk.privateKey.getD [] := by
          unfold SignedPreKeyRecord.getKeyPair at hkp
          obtain ⟨pub, _, hkp⟩ := bind_eq_ok.1 hkp
          obtain rfl := Except.ok.inj hkp
          rfl
        refine ⟨spk, hspk, ?_⟩
        rw [← hkp]
        cases hi : m.preKeyId with
        | none =>
          rw [hi] at hv
          obtain ⟨o, ho, hv, w3⟩ := work_bind_ok hv
          obtain rfl := Except.ok.inj ho
          obtain ⟨s, hs, hv, w4⟩ := work_bind_ok hv
          have := asBob_steps hs
          simp only at w3 ⊢
          rw [w3, w4, work_lift_bind fun _ => work_lift_bind fun _ => work_pure _, work_pure, List.append_nil]
          exact this
        | some i =>
          rw [hi] at hv
          simp only at hv ⊢
          obtain ⟨pk, hpk, hv, w3⟩ := work_bind_ok hv
          obtain ⟨op, hop, hv, w4⟩ := work_bind_ok hv
          obtain ⟨o, ho, hv, w5⟩ := work_bind_ok hv
          obtain rfl := Except.ok.inj ho
          obtain ⟨s, hs, hv, w6⟩ := work_bind_ok hv
          have := asBob_steps hs
          rw [w3, w4, w5, w6, work_lift_bind fun _ => work_lift_bind fun _ => work_pure _, work_pure, work_lift, work_lift, List.append_nil]
          rw [value_lift] at hpk hop
          have hpk : w.preKeys i = some pk := by
            unfold World.loadPreKey at hpk
            split at hpk
            · rename_i h
              rw [h, Except.ok.inj hpk]
            · cases hpk
          unfold PreKeyRecord.getKeyPair at hop
          obtain ⟨pub, _, hop⟩ := bind_eq_ok.1 hop
          obtain rfl := Except.ok.inj hop
          rw [Option.bind_some, hpk]
          exact this
  · rw [if_pos (by simp [ht])] at h
    cases h

end Work

/-- **C117, reading a first message**: nothing more for a base key that is known, else the steps of the answering side, and then those of reading, by a
state that was there or by the one that was just set up. -/
theorem C117_first (hC : C.Lawful) (w : World) (a : Address) (m : PreKeyWhisperMessage) (seed pt : Bytes) (seeds : Nat → Bytes)
    (h : (SessionCipher.decryptPkmsg w a m seed seeds).result = .ok pt) (hm : m.message.messageVersion = 3) :
    ∃ setting earlier t s random, callTrace w (.decryptPkmsg a m seed seeds) = setting ++ earlier ++ t ∧
      ((knowsBaseKey (w.loadSession a) m.version m.baseKey ∧ setting = []) ∨
        (NewSession w a m ∧ ∃ p, w.signedPreKeys m.signedPreKeyId = some p ∧
          AnswerSteps w.identityKeyPair.priv (p.privateKey.getD []) ((m.preKeyId.bind w.preKeys).map fun p => p.privateKey.getD [])
            m.identityKey m.baseKey setting)) ∧
      (s ∈ states (w.loadSession a) ∨ (NewSession w a m ∧ SetUp w m s)) ∧ (random = seed ∨ ∃ j, random = seeds j) ∧
      ReadSteps s m.message random t := by
  unfold callTrace
  simp only [Work.run, mapped_trace]
  unfold Work.decryptPkmsg
  unfold SessionCipher.decryptPkmsg at h
  rw [work_ok (Work.process_value ..)]
  simp only at h
  cases hp : (SessionBuilder.process w a (w.loadSession a) m).result with
  | error e => rw [hp] at h; cases h
  | ok x =>
    obtain ⟨r, u⟩ := x
    rw [hp] at h
    simp only at h ⊢
    have hst := Work.process_steps hp
    have hs : ∀ s ∈ states r, s ∈ states (w.loadSession a) ∨ (NewSession w a m ∧ SetUp w m s) := by
      intro s hs
      rcases (process_states hp).2 with h1 | ⟨h1, _⟩
      · exact .inl (h1 s hs)
      · exact (states_after_process hC hp hs).imp_right fun h => ⟨h1, h⟩
    cases hd : SessionCipher.decryptWithSessionRecord r m.message seed seeds with
    | error e => rw [hd] at h; cases h
    | ok q =>
      rw [work_ok (value_attempt _), work_attempt, Work.decryptWithSessionRecord_value, hd]
      simp only
      rw [work_pure, List.append_nil]
      rcases record_read hC hm hd with h1 | ⟨e, t, s, j, h1, _, h3, h4⟩
      · exact ⟨_, [], _, _, seed, by rw [List.append_nil], hst, hs _ (List.mem_cons_self ..), .inl rfl, h1⟩
      · exact ⟨_, e, t, s, seeds j, by rw [h3, List.append_assoc], hst, hs _ (List.mem_cons_of_mem _ h1), .inr ⟨j, rfl⟩, h4⟩

namespace Work
open Fallible

theorem signature_some {r : Bytes} {k : ECPriv} {d s : Bytes} (h : Curve.calculateSignature r k d = .ok s) : C.calcSig r k d = some s := by
  unfold Curve.calculateSignature at h
  cases hx : C.calcSig r k d with
  | none => rw [hx] at h; cases h
  | some y => rw [hx] at h; rw [Except.ok.inj h]

theorem calculateSignature_steps (r : Bytes) (k : ECPriv) (d : Bytes) : (calculateSignature tracing r k d).work = [.calcSig r k d] := by
  unfold calculateSignature
  rw [work_ok (value_calcSig _ _ _), orValueError_trace]
  rfl

theorem senderMessageKey_steps (i : Nat) (seed : Bytes) : (senderMessageKey tracing i seed).work = hkdfSteps [] seed groupInfo 48 := by
  unfold senderMessageKey
  rw [work_ok (deriveSecrets_value ..), work_pure, List.append_nil]
  exact deriveSecrets_steps _ _ _ (by decide)

theorem getSenderMessageKey_steps (c : SenderChainKey) : (getSenderMessageKey tracing c).work = groupKeySteps c.chainKey := by
  unfold getSenderMessageKey
  rw [work_ok (value_hmac _ _), senderMessageKey_steps]
  rfl

theorem getNext_steps (c : SenderChainKey) : (getNext tracing c).work = [.hmac c.chainKey [2]] := rfl

theorem groupSkipLoop_steps {n : Nat} {s : SenderKeyState} {c : SenderChainKey} {r : SenderKeyState × SenderChainKey}
    (h : (groupSkipLoop tracing n s c).value = .ok r) :
    (groupSkipLoop tracing n s c).work =
      (List.range n).flatMap fun j => groupKeySteps (chainAt c.chainKey j) ++ [.hmac (chainAt c.chainKey j) [2]] := by
  induction n generalizing s c with
  | zero => rfl
  | succ n ih =>
    unfold groupSkipLoop at h ⊢
    obtain ⟨k, _, h, w1⟩ := work_bind_ok h
    obtain ⟨s1, _, h, w2⟩ := work_bind_ok h
    obtain ⟨c1, h1, h, w3⟩ := work_bind_ok h
    rw [getNext_value] at h1
    obtain rfl := Except.ok.inj h1
    rw [w1, w2, w3, ih h, work_lift, getSenderMessageKey_steps, getNext_steps, List.range_succ_eq_map, List.flatMap_cons, List.flatMap_map]
    have : ∀ j, chainAt c.getNext.chainKey j = chainAt c.chainKey (j + 1) := chainAt_next c.chainKey
    simp only [this]
    simp [chainAt]

theorem getSenderKey_steps (hC : C.Lawful) {s : SenderKeyState} {i : Nat} {r : SenderMessageKey × SenderKeyState}
    (h : (getSenderKey tracing s i).value = .ok r) :
    ∃ seed, r.1.iv = groupIv seed ∧ r.1.cipherKey = groupCipherKey seed ∧ GroupSeedSteps s i seed (getSenderKey tracing s i).work := by
  have hk := (getSenderKey_value (f := fun o => [o]) s i).symm.trans h
  obtain ⟨k, s'⟩ := r
  rcases (getSenderKey_step hk).2 with ⟨hlt, x, rest, ht, rfl, _⟩ | ⟨hle, _, rfl, _⟩
  · refine ⟨x.seed.getD [], by rw [senderMessageKey_eq hC.hmac_len], by rw [senderMessageKey_eq hC.hmac_len], ?_⟩
    obtain ⟨q1, q2⟩ := groupTake_mem ht
    have : (getSenderKey tracing s i).work = hkdfSteps [] (x.seed.getD []) groupInfo 48 := by
      unfold getSenderKey at h ⊢
      simp only at h ⊢
      rw [if_pos (by rw [position_eq]; exact hlt)] at h ⊢
      by_cases hh : SenderKeyState.hasSenderMessageKey s i = true
      · rw [if_pos hh] at h ⊢
        obtain ⟨y, hy, h, w1⟩ := work_bind_ok h
        rw [w1]
        have hw : (removeSenderMessageKey tracing s i).work = hkdfSteps [] (x.seed.getD []) groupInfo 48 := by
          unfold removeSenderMessageKey
          rw [ht]
          simp only
          rw [work_ok (senderMessageKey_value ..), work_pure, senderMessageKey_steps, List.append_nil]
        rw [hw]
        obtain ⟨o, s2⟩ := y
        cases o with
        | none => cases h
        | some k => exact List.append_nil _
      · rw [if_neg hh] at h
        cases h
    rw [this]
    exact .late q1 q2 hlt
  · refine ⟨_, by rw [senderMessageKey_eq hC.hmac_len], by rw [senderMessageKey_eq hC.hmac_len], ?_⟩
    have : (getSenderKey tracing s i).work = groupChainSteps (chainKeyOf s) (i - iterationOf s) := by
      unfold getSenderKey at h ⊢
      simp only at h ⊢
      rw [if_neg (by rw [position_eq]; omega), if_neg (by rw [position_eq]; omega)] at h ⊢
      obtain ⟨y, hy, h, w1⟩ := work_bind_ok h
      obtain ⟨n, hn, h, w2⟩ := work_bind_ok h
      obtain ⟨s2, _, h, w3⟩ := work_bind_ok h
      obtain ⟨k2, _, h, w4⟩ := work_bind_ok h
      rw [w1, w2, w3, w4, work_lift, work_pure, groupSkipLoop_steps hy, getNext_steps, getSenderMessageKey_steps,
        groupSkipped_chain ((groupSkipLoop_value ..).symm.trans hy), chainKeyOf_eq, position_eq]
      simp [groupChainSteps]
    rw [this]
    exact .ahead (by omega)

end Work

/-- **C117, sending to a group**. -/
theorem C117_group_send (hC : C.Lawful) (g : GroupStore) (n : SenderKeyName) (pt rand b : Bytes) (hpt : pt.length < 2 ^ 62)
    (h : (GroupCipher.encrypt g n pt rand).result = .ok b) :
    ∃ s rest priv k body ct sig, (g n).senderKeyStates = s :: rest ∧ priv = (s.senderSigningKey.getD {}).priv.getD [] ∧ k = chainKeyOf s ∧
      CbcEncryption (groupCipherKey (groupSeed k)) (groupIv (groupSeed k)) pt ct ∧
      body = groupMessage (s.senderKeyId.getD 0) (iterationOf s) ct ∧ C.calcSig rand priv body = some sig ∧ b = body ++ sig ∧
      groupCallTrace g (.encrypt n pt rand) =
        groupKeySteps k ++ cbcSteps (groupCipherKey (groupSeed k)) (groupIv (groupSeed k)) pt ct ++ [.calcSig rand priv body, .hmac k [2]] := by
  unfold groupCallTrace
  simp only [Work.groupRun, mapped_trace]
  unfold Work.groupEncrypt
  unfold GroupCipher.encrypt at h
  rw [work_ok (value_attempt _), work_attempt, Work.encryptWithRecord_value]
  cases he : GroupCipher.encryptWithRecord (g n) pt rand with
  | error e =>
    rw [he] at h
    simp only [GroupCipher.wrapNoSession] at h
    split at h <;> cases h
  | ok q =>
    rw [he] at h
    have hq := Except.ok.inj h
    have he := (Work.encryptWithRecord_value (f := fun o => [o]) (g n) pt rand).trans he
    simp only
    rw [work_pure, List.append_nil]
    unfold Work.encryptWithRecord at he ⊢
    obtain ⟨st, hst, he, w1⟩ := Work.work_bind_ok he
    obtain ⟨sk, hk, he, w2⟩ := Work.work_bind_ok he
    obtain ⟨ct, hct, he, w3⟩ := Work.work_bind_ok he
    obtain ⟨m, hm, he, w4⟩ := Work.work_bind_ok he
    obtain ⟨nx, _, he, w5⟩ := Work.work_bind_ok he
    obtain ⟨st2, _, he, w6⟩ := Work.work_bind_ok he
    obtain rfl := Except.ok.inj he
    rw [value_lift] at hst
    rw [Work.getSenderMessageKey_value] at hk
    obtain rfl := Except.ok.inj hk
    unfold SenderKeyRecord.getFirstState at hst
    split at hst
    · rename_i s rest hr
      obtain rfl := Except.ok.inj hst
      rw [w1, w2, w3, w4, w5, w6, work_lift, work_lift, work_pure, Work.getSenderMessageKey_steps, Work.getNext_steps, chainKeyOf_eq]
      rw [Work.aesEncrypt_value] at hct
      rw [Work.aesEncrypt_steps hC hct]
      unfold SenderChainKey.getSenderMessageKey at hct hm ⊢
      rw [position_eq, chainKeyOf_eq] at hct hm ⊢
      have hg : C.hmac (chainKeyOf s) SenderChainKey.MESSAGE_KEY_SEED = groupSeed (chainKeyOf s) := rfl
      simp only [senderMessageKey_eq hC.hmac_len] at hct hm ⊢
      have hcbc := aes_cbc hC hct
      have hlen : ct.length < 2 ^ 64 := by
        have := padded_length pt
        rw [hcbc.length]
        omega
      unfold Work.createSenderKeyMessage at hm ⊢
      obtain ⟨id, hid, hm, v1⟩ := Work.work_bind_ok hm
      obtain ⟨it, hit, hm, v2⟩ := Work.work_bind_ok hm
      obtain ⟨sig, hsig, hm, v3⟩ := Work.work_bind_ok hm
      obtain rfl := Except.ok.inj hm
      rw [v1, v2, v3, work_lift, work_lift, work_pure]
      rw [value_lift, chkU32_eq_ok] at hid hit
      obtain ⟨e1, l1⟩ := hid
      obtain ⟨e2, l2⟩ := hit
      have e1 : id = s.senderKeyId.getD 0 := by
        have : (s.senderKeyId.getD 0 : Int) = id := e1
        omega
      have e2 : it = iterationOf s := by
        have : (iterationOf s : Int) = it := e2
        omega
      rw [Work.calculateSignature_value] at hsig
      have hser := groupMessage_serialized l1 l2 hlen
      rw [hser] at hsig ⊢
      rw [e1, e2] at hser hsig ⊢
      refine ⟨s, rest, _, _, _, ct, sig, hr, rfl, rfl, hcbc, rfl, Work.signature_some hsig, ?_, ?_⟩
      · rw [← hq, ← hser, e1, e2]; rfl
      · rw [Work.calculateSignature_steps]
        simp only [List.append_assoc, List.cons_append, List.nil_append, List.append_nil]
        rfl
    · cases hst

/-- **C117, reading in a group**: the signature, the keys, the blocks. -/
theorem C117_group_read (hC : C.Lawful) (g : GroupStore) (n : SenderKeyName) (b pt : Bytes) (h : (GroupCipher.decrypt g n b).result = .ok pt) :
    ∃ m s pub body sig seed t, SenderKeyMessage.parse b = .ok m ∧ stateFor (g n) m.keyId = some s ∧ GroupChecks g (.decrypt n b) pub body sig ∧
      C.verifySig pub body sig = some true ∧ GroupSeedSteps s m.iteration seed t ∧ CbcDecryption (groupCipherKey seed) (groupIv seed) m.ciphertext pt ∧
      groupCallTrace g (.decrypt n b) = .verifySig pub body sig :: t ++ openSteps (groupCipherKey seed) m.ciphertext := by
  unfold groupCallTrace
  simp only [Work.groupRun, mapped_trace]
  unfold Work.groupDecrypt
  unfold GroupCipher.decrypt at h
  rw [work_ok (value_attempt _), work_attempt, Work.decryptWithRecord_value]
  cases he : GroupCipher.decryptWithRecord (g n) b with
  | error e =>
    rw [he] at h
    simp only [GroupCipher.wrapInvalid] at h
    split at h <;> cases h
  | ok q =>
    rw [he] at h
    have hq := Except.ok.inj h
    have he := (Work.decryptWithRecord_value (f := fun o => [o]) (g n) b).trans he
    simp only
    rw [work_pure, List.append_nil]
    unfold Work.decryptWithRecord at he ⊢
    by_cases hem : (g n).isEmpty = true
    · rw [if_pos hem] at he; cases he
    rw [if_neg hem] at he ⊢
    obtain ⟨m, hm, he, w1⟩ := Work.work_bind_ok he
    obtain ⟨st, hst, he, w2⟩ := Work.work_bind_ok he
    obtain ⟨pub, hpub, he, w3⟩ := Work.work_bind_ok he
    obtain ⟨u, hu, he, w4⟩ := Work.work_bind_ok he
    obtain ⟨k, hk, he, w5⟩ := Work.work_bind_ok he
    obtain ⟨x, hx, he, w6⟩ := Work.work_bind_ok he
    obtain rfl := Except.ok.inj he
    obtain rfl : x = pt := hq
    rw [value_lift] at hm hst hpub
    obtain ⟨s, j⟩ := st
    have hs := (SenderKeyRecord.getStateById_ok hst).1
    have hser := senderkey_parse_serialized hm
    have hsig : C.verifySig pub
        (ByteUtil.split2 m.serialized ((m.serialized.length : Int) - SenderKeyMessage.SIGNATURE_LENGTH) SenderKeyMessage.SIGNATURE_LENGTH).1
        (ByteUtil.split2 m.serialized ((m.serialized.length : Int) - SenderKeyMessage.SIGNATURE_LENGTH) SenderKeyMessage.SIGNATURE_LENGTH).2
        = some true ∧ (Work.verifySenderKeyMessage tracing m pub).work = [.verifySig pub
        (ByteUtil.split2 m.serialized ((m.serialized.length : Int) - SenderKeyMessage.SIGNATURE_LENGTH) SenderKeyMessage.SIGNATURE_LENGTH).1
        (ByteUtil.split2 m.serialized ((m.serialized.length : Int) - SenderKeyMessage.SIGNATURE_LENGTH) SenderKeyMessage.SIGNATURE_LENGTH).2] := by
      unfold Work.verifySenderKeyMessage at hu ⊢
      simp only at hu ⊢
      obtain ⟨ok, h1, h2, v1⟩ := Work.work_bind_ok hu
      have hok : ok = true := by
        cases ok with
        | true => rfl
        | false => cases h2
      subst hok
      rw [v1, Work.verifySignature_trace]
      refine ⟨?_, rfl⟩
      rw [Work.verifySignature_value] at h1
      unfold Curve.verifySignature at h1
      cases hv : C.verifySig pub
          (ByteUtil.split2 m.serialized ((m.serialized.length : Int) - SenderKeyMessage.SIGNATURE_LENGTH) SenderKeyMessage.SIGNATURE_LENGTH).1
          (ByteUtil.split2 m.serialized ((m.serialized.length : Int) - SenderKeyMessage.SIGNATURE_LENGTH) SenderKeyMessage.SIGNATURE_LENGTH).2 with
      | none => rw [hv] at h1; cases h1
      | some x => rw [hv] at h1; rw [Except.ok.inj h1]
    obtain ⟨seed, g1, g2, g3⟩ := Work.getSenderKey_steps hC hk
    have hd : AES.decrypt (groupCipherKey seed) (groupIv seed) m.ciphertext = .ok x := by
      rw [Work.getPlainText_value] at hx
      unfold GroupCipher.getPlainText at hx
      rw [← g1, ← g2]
      exact wrapAll_ok hx
    refine ⟨m, s, pub, _, _, seed, _, hm, hs, .message hm hs (KeyOf_iff.2 hpub) fun hl => ?_, hsig.1, g3, aes_cbc_dec hC hd, ?_⟩
    · have hd : (b.drop (b.length - 64)).length = 64 := by rw [List.length_drop]; omega
      have := split2_tail (b.take (b.length - 64)) (b.drop (b.length - 64)) 64 hd
      rw [List.take_append_drop] at this
      rw [hser]
      have e : ByteUtil.split2 b ((b.length : Int) - SenderKeyMessage.SIGNATURE_LENGTH) SenderKeyMessage.SIGNATURE_LENGTH =
        (b.take (b.length - 64), b.drop (b.length - 64)) := this
      rw [e]
      exact ⟨(List.take_append_drop ..).symm, hd⟩
    · have hp : (Work.getPlainText tracing k.1.iv k.1.cipherKey m.ciphertext).work = openSteps (groupCipherKey seed) m.ciphertext := by
        unfold Work.getPlainText
        rw [work_ok (value_attempt _), work_attempt, work_lift, List.append_nil, g1, g2]
        exact Work.aesDecrypt_steps hd
      rw [w1, w2, w3, w4, w5, w6, hsig.2, hp, work_lift, work_lift, work_lift, work_pure]
      simp

namespace Work
open Fallible

omit C in
theorem attempt_then {α β : Type} (x : Traced α) {g : Res α → Traced β} (hg : ∀ v, (g v).work = []) : (attempt x >>= g).work = x.work := by
  rw [work_ok (value_attempt _), work_attempt, hg, List.append_nil]

theorem initializeSession_steps (hC : C.Lawful) {s s' : SessionState} {p : SymmetricParameters} {seed : Bytes} {m : KeyExchangeMessage}
    (h1 : p.theirBaseKey = m.baseKey) (h2 : p.theirRatchetKey = m.ratchetKey) (h3 : p.theirIdentityKey = m.identityKey)
    (h : (initializeSession tracing s p seed).value = .ok s') :
    ExchangeSteps p.ourIdentityKey p.ourBaseKey seed m (initializeSession tracing s p seed).work := by
  unfold initializeSession at h ⊢
  obtain ⟨x, hx, h, w1⟩ := work_bind_ok h
  rw [value_lift] at hx
  rw [w1, work_lift, List.nil_append]
  have hsm := pubLt_iff hx
  rw [h1] at hsm
  cases x with
  | true =>
    have := asAlice_steps hC h
    simp only [h1, h2, h3] at this ⊢
    exact .smaller (hsm.1 rfl) this
  | false =>
    have := asBob_steps h
    simp only [h1, h3] at this ⊢
    exact .larger (fun h => by cases hsm.2 h) this

end Work

/-- **C117, asking for a key exchange**: two key pairs and a signature. -/
theorem C117_ask (w : World) (a : Address) (n : Nat) (s1 s2 s3 : Bytes) :
    callTrace w (.initKeyExchange a n s1 s2 s3) = [.genPriv s1, .genPub (C.genPriv s1), .genPriv s2, .genPub (C.genPriv s2),
      .calcSig s3 w.identityKeyPair.priv (5 :: C.genPub (C.genPriv s1))] := by
  unfold callTrace
  simp only [Work.run, mapped_trace]
  unfold Work.processInitKeyExchangeMessage
  rw [work_ok (Work.generateKeyPair_value _), work_ok (Work.generateKeyPair_value _)]
  refine (congrArg (_ ++ ·) (congrArg (_ ++ ·) (Work.attempt_then _ fun v => ?_))).trans ?_
  · cases v <;> rfl
  have h2 : ∀ f : Bytes → Traced (Bytes × SessionRecord), (∀ x, (f x).work = []) →
      (Work.calculateSignature tracing s3 w.identityKeyPair.priv (Curve.serializePoint (Curve.generateKeyPair s1).pub) >>= f).work =
      [.calcSig s3 w.identityKeyPair.priv (5 :: C.genPub (C.genPriv s1))] := by
    intro f hf
    cases hv : (Work.calculateSignature tracing s3 w.identityKeyPair.priv (Curve.serializePoint (Curve.generateKeyPair s1).pub)).value with
    | ok x => rw [work_ok hv, hf, List.append_nil, Work.calculateSignature_steps]; rfl
    | error e => rw [work_error hv, Work.calculateSignature_steps]; rfl
  refine (congrArg (_ ++ ·) (congrArg (_ ++ ·) (h2 _ fun x => Work.work_lift_bind fun _ => work_pure _))).trans rfl

/-- **C117, a request for a key exchange**: the signature is checked; new keys are made if no exchange is pending; the session is set up; our base key is
signed. -/
theorem C117_request (hC : C.Lawful) (w : World) (a : Address) (m : KeyExchangeMessage) (rnd : SessionBuilder.InitiateRand)
    (r : Option KeyExchangeMessage) (h : (SessionBuilder.processKeyExchangeMessage w a m rnd).result = .ok r) (hm : m.isInitiate = true) :
    ∃ identity base ratchet flags new t, AnswerKeys w a rnd identity base ratchet flags ∧ ExchangeSteps identity base rnd.sendSeed m t ∧
      ((Spec.pendingOf (w.sessions a) = none ∧ new = [.genPriv rnd.baseSeed, .genPub (C.genPriv rnd.baseSeed), .genPriv rnd.ratchetSeed,
          .genPub (C.genPriv rnd.ratchetSeed)]) ∨ ((Spec.pendingOf (w.sessions a)).isSome ∧ new = [])) ∧
      callTrace w (.processKeyExchange a m rnd) = .verifySig m.identityKey (5 :: m.baseKey) m.baseKeySignature :: new ++ t ++
        [.calcSig rnd.sigRand identity.priv (5 :: base.pub)] := by
  unfold callTrace
  simp only [Work.run, mapped_trace]
  unfold Work.processKeyExchangeMessage
  unfold SessionBuilder.processKeyExchangeMessage at h
  by_cases ht : w.isTrusted a.1 m.identityKey = true
  · rw [if_neg (by simp [ht]), if_pos hm] at h ⊢
    unfold SessionBuilder.processInitiate at h
    unfold Work.processInitiate
    rw [work_ok (value_attempt _), work_attempt, Work.processInitiateState_value]
    cases hs : SessionBuilder.processInitiateState w a m rnd with
    | error e => rw [hs] at h; cases h
    | ok q =>
      obtain ⟨rec, flags, p⟩ := q
      have hkeys := (initiate_keys hs).2
      rw [hs] at h
      simp only at h ⊢
      obtain ⟨sig, hsig, h⟩ := bind_eq_ok.1 h
      have hlast : ∀ (f : Bytes → Traced (Option KeyExchangeMessage)) (o : Res (Option KeyExchangeMessage) → Outcome (Option KeyExchangeMessage)),
          (∀ x, (f x).work = []) →
          ((Fallible.attempt (Work.calculateSignature tracing rnd.sigRand p.ourIdentityKey.priv (Curve.serializePoint p.ourBaseKey.pub) >>= f)) >>=
            fun v => pure (o v)).work = [Op.calcSig rnd.sigRand p.ourIdentityKey.priv (5 :: p.ourBaseKey.pub)] := by
        intro f o hf
        rw [work_ok (value_attempt _), work_attempt, work_ok ((Work.calculateSignature_value ..).trans hsig), hf, work_pure, List.append_nil,
          List.append_nil, Work.calculateSignature_steps]
        rfl
      rw [hlast _ _ fun x => Work.work_lift_bind fun _ => work_pure _]
      have hv := (Work.processInitiateState_value (f := fun o => [o]) w a m rnd).trans hs
      unfold Work.processInitiateState at hv ⊢
      obtain ⟨ok, _, hv, w1⟩ := Work.work_bind_ok hv
      rw [w1, Work.verifySignature_trace]
      cases ok with
      | false => cases hv
      | true =>
      rw [if_neg (by simp)] at hv ⊢
      have hpl := pending_loaded w a
      by_cases hp : (w.loadSession a).sessionState.hasPendingKeyExchange = true
      · rw [if_neg (by simp [hp])] at hv ⊢
        obtain ⟨ik, _, hv, v1⟩ := Work.work_bind_ok hv
        obtain ⟨bk, _, hv, v2⟩ := Work.work_bind_ok hv
        obtain ⟨rk, _, hv, v3⟩ := Work.work_bind_ok hv
        obtain ⟨y, hy, hv, v4⟩ := Work.work_bind_ok hv
        obtain rfl := Except.ok.inj hy
        obtain ⟨s, hs', hv, v5⟩ := Work.work_bind_ok hv
        obtain ⟨_, he⟩ := Prod.mk.inj (Except.ok.inj hv)
        obtain ⟨rfl, rfl⟩ := Prod.mk.inj he
        refine ⟨_, _, _, _, [], _, hkeys, Work.initializeSession_steps hC rfl rfl rfl hs', .inr ⟨?_, rfl⟩, ?_⟩
        · unfold hasPendingKeyExchange at hp
          rw [hpl] at hp
          exact hp
        · rw [v1, v2, v3, v4, v5, work_lift, work_lift, work_lift, work_pure, work_pure]
          simp only [List.cons_append, List.nil_append, List.append_nil]
          rfl
      · rw [if_pos (by simp [hp])] at hv ⊢
        obtain ⟨bk, hbk, hv, v1⟩ := Work.work_bind_ok hv
        obtain ⟨rk, hrk, hv, v2⟩ := Work.work_bind_ok hv
        obtain ⟨y, hy, hv, v4⟩ := Work.work_bind_ok hv
        obtain rfl := Except.ok.inj hy
        obtain ⟨s, hs', hv, v5⟩ := Work.work_bind_ok hv
        obtain ⟨_, he⟩ := Prod.mk.inj (Except.ok.inj hv)
        obtain ⟨rfl, rfl⟩ := Prod.mk.inj he
        refine ⟨_, _, _, _, _, _, hkeys, Work.initializeSession_steps hC rfl rfl rfl hs', .inl ⟨?_, rfl⟩, ?_⟩
        · unfold hasPendingKeyExchange at hp
          rw [hpl] at hp
          cases h : Spec.pendingOf (w.sessions a) with
          | none => rfl
          | some x => rw [h] at hp; simp at hp
        · rw [v1, v2, v4, v5, work_pure, work_pure]
          simp only [List.append_assoc, List.cons_append, List.nil_append, List.append_nil]
          rfl
  · rw [if_pos (by simp [ht])] at h
    cases h

/-- **C117, the reply to our request**: the session is set up, and then the signature is checked. -/
theorem C117_reply (hC : C.Lawful) (w : World) (a : Address) (m : KeyExchangeMessage) (rnd : SessionBuilder.InitiateRand) (p : PendingKeyExchangeS)
    (r : Option KeyExchangeMessage) (h : (SessionBuilder.processKeyExchangeMessage w a m rnd).result = .ok r) (hm : m.isInitiate = false)
    (hp : Spec.pendingOf (w.sessions a) = some p) (hq : p.sequence.getD 0 = m.sequence) :
    ∃ identity base ratchet t, PendingKeys p identity base ratchet ∧ ExchangeSteps identity base rnd.sendSeed m t ∧
      callTrace w (.processKeyExchange a m rnd) = t ++ [.verifySig m.identityKey (5 :: m.baseKey) m.baseKeySignature] := by
  have hpl := (pending_loaded w a).trans hp
  have hc : ¬ ((!(w.loadSession a).sessionState.hasPendingKeyExchange ||
      (w.loadSession a).sessionState.getPendingKeyExchangeSequence != m.sequence) = true) := by
    unfold hasPendingKeyExchange getPendingKeyExchangeSequence pendingKED
    rw [hpl]
    simp [hq]
  unfold callTrace
  simp only [Work.run, mapped_trace]
  have hv := Work.processResponse_value (f := fun o => [o]) w a m rnd.sendSeed
  unfold Work.processKeyExchangeMessage
  unfold SessionBuilder.processKeyExchangeMessage at h
  by_cases ht : w.isTrusted a.1 m.identityKey = true
  · rw [if_neg (by simp [ht]), if_neg (by simp [hm])] at h ⊢
    unfold Work.processResponse at hv ⊢
    simp only at hv ⊢
    rw [if_neg hc] at hv ⊢
    rw [outcome_trace]
    rw [Work.outcome_value] at hv
    have hv := Except.ok.inj hv
    rw [← hv] at h
    have h := Outcome.ofRes_ok h
    obtain ⟨bk, hbk, h, w1⟩ := Work.work_bind_ok h
    obtain ⟨rk, hrk, h, w2⟩ := Work.work_bind_ok h
    obtain ⟨ik, hik, h, w3⟩ := Work.work_bind_ok h
    obtain ⟨s, hs, h, w4⟩ := Work.work_bind_ok h
    obtain ⟨ok, hok, h, w5⟩ := Work.work_bind_ok h
    rw [value_lift] at hbk hrk hik
    refine ⟨ik, bk, rk, _, pendingKeys_of hpl hik hbk hrk, Work.initializeSession_steps hC rfl rfl rfl hs, ?_⟩
    rw [w1, w2, w3, w4, w5, work_lift, work_lift, work_lift, Work.verifySignature_trace]
    cases ok with
    | false => cases h
    | true => rw [if_neg (by simp), work_pure]; rfl
  · rw [if_pos (by simp [ht])] at h
    cases h

/-- **C117, making the keys of a group**: one key pair, the first time, and nothing later. -/
theorem C117_group_create (g : GroupStore) (n : SenderKeyName) (rnd : GroupSessionBuilder.CreateRand) :
    groupCallTrace g (.create n rnd) = if (g n).senderKeyStates = [] then [.genPriv rnd.signSeed, .genPub (C.genPriv rnd.signSeed)] else [] := by
  unfold groupCallTrace
  simp only [Work.groupRun, mapped_trace]
  unfold Work.groupCreate
  have he : (g n).isEmpty = true ↔ (g n).senderKeyStates = [] := by
    unfold SenderKeyRecord.isEmpty
    simp
  by_cases h : (g n).isEmpty = true
  · rw [if_pos h, if_pos (he.1 h)]
    rfl
  · rw [if_neg h, if_neg fun h' => h (he.2 h')]
    rfl

end

/-! ## Examples -/

section
attribute [local instance] toy
open Example Spec

/-- The hypotheses of `C117_send`, and the steps: Alice writes to Bob. -/
example : (SessionCipher.encrypt alice1 bobAddr [1, 2]).result.toOption.isSome = true ∧
    (alice1.loadSession bobAddr).sessionState.sessionVersion = some 3 ∧
    (keySteps (Spec.sendKey (alice1.loadSession bobAddr).sessionState)).isPrefixOf (callTrace alice1 (.encrypt bobAddr [1, 2])) = true ∧
    (callTrace alice1 (.encrypt bobAddr [1, 2])).getLast? = some (.hmac (Spec.sendKey (alice1.loadSession bobAddr).sessionState) [2]) := by
  decide +kernel

/-- The hypotheses of `C117_send2`: Bob writes in a version-2 session. -/
example : (SessionCipher.encrypt old2WB aliceAddr [104, 105]).result.toOption.isSome = true ∧
    versionOf (old2WB.loadSession aliceAddr).sessionState = 2 ∧
    (keySteps2 (Spec.sendKey (old2WB.loadSession aliceAddr).sessionState)).isPrefixOf (callTrace old2WB (.encrypt aliceAddr [104, 105])) = true := by
  decide +kernel

/-- The hypotheses of `C117_read`: Alice reads the reply. -/
example : (SessionCipher.decryptMsg alice2 bobAddr replyMsg (key 43) fun _ => key 44).result.toOption = some [121, 111] ∧
    replyMsg.messageVersion = 3 := by
  decide +kernel

/-- The hypotheses of `C117_bundle` and `C117_first`: Alice begins with a bundle, and Bob reads their first message. -/
example : (SessionBuilder.processPreKeyBundle alice0 bobAddr bobBundle (key 41) (key 42)).result.toOption = some () ∧
    (SessionCipher.decryptPkmsg bob0 aliceAddr firstPk (key 31) fun _ => key 32).result.toOption.isSome = true ∧
    firstPk.message.messageVersion = 3 := by
  decide +kernel

/-- The hypotheses of `C117_request` and `C117_reply`: Bob answers Alice's request, and Alice reads the answer. -/
example : (SessionBuilder.processKeyExchangeMessage bob0 aliceAddr keAskMsg keRand).result.toOption.isSome = true ∧ keAskMsg.isInitiate = true ∧
    (SessionBuilder.processKeyExchangeMessage keAlice1 bobAddr keAnswerMsg keRand).result.toOption.isSome = true ∧ keAnswerMsg.isInitiate = false ∧
    (Spec.pendingOf (keAlice1.sessions bobAddr)).map (fun p => p.sequence.getD 0) = some keAnswerMsg.sequence := by
  decide +kernel

/-- The hypotheses of `C117_group_send` and `C117_group_read`: the creator of a group encrypts, and reads their own message. -/
example : (match (GroupCipher.encrypt ((GroupCall.create grp grpRand).next GroupStore.empty) grp [1] grpSig).result with
      | .error _ => false
      | .ok b => (GroupCipher.decrypt ((GroupCall.create grp grpRand).next GroupStore.empty) grp b).result.toOption == some [1]) = true := by
  decide +kernel

end
end Axolotl
