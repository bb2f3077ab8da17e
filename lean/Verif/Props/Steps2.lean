import Verif.Props.Steps

/-! # C117: the steps of reading in a version-2 session -/

namespace Axolotl
section
variable [C : Crypto]
open Spec Logged Traced SessionState
namespace Work
open Fallible

theorem createChain_steps2 {r : RootKey} (hr : r.kdf = .v2) {t : ECPub} {o : KeyPair} {x : Bytes} (h : C.dh o.priv t = some x) :
    (createChain tracing r t o).work = .dh o.priv t :: hkdfSteps2 r.key x ratchetInfo 64 := by
  have hv : (calculateAgreement tracing t o.priv).value = .ok x := by
    rw [calculateAgreement_value]
    unfold Curve.calculateAgreement
    rw [h]
  unfold createChain
  rw [work_ok hv, calculateAgreement_trace, work_ok (deriveSecrets_value ..), work_pure, List.append_nil, hr, deriveSecrets_steps2 _ _ _ (by decide)]
  rfl

theorem skipLoop_steps2 {t : ECPub} {n : Nat} {s : SessionState} {c : ChainKey} (hk : c.kdf = .v2) {r : SessionState × ChainKey}
    (h : SessionCipher.skipLoop t n s c = .ok r) :
    (skipLoop tracing t n s c).work = (List.range n).flatMap fun j => keySteps2 (chainAt c.key j) ++ [.hmac (chainAt c.key j) [2]] := by
  induction n generalizing s c with
  | zero => rfl
  | succ n ih =>
    unfold SessionCipher.skipLoop at h
    obtain ⟨s1, h1, h⟩ := bind_eq_ok.1 h
    unfold skipLoop
    rw [work_ok (getMessageKeys_value _), work_ok ((value_lift _).trans h1), work_lift, work_ok (getNextChainKey_value _),
      ih (by exact hk) h, getMessageKeys_steps2 hk, getNextChainKey_steps, List.range_succ_eq_map, List.flatMap_cons, List.flatMap_map]
    have : ∀ j, chainAt c.getNextChainKey.key j = chainAt c.key (j + 1) := chainAt_next c.key
    simp only [this]
    simp [chainAt]

/-- The keys of a message, if they are found: stored, or further along the chain. -/
theorem getOrCreateMessageKeys_steps2 {s : SessionState} {t : ECPub} {c : ChainKey} {n : Nat} (hk : c.kdf = .v2) {r : MessageKeys × SessionState}
    (h : SessionCipher.getOrCreateMessageKeys s t c n = .ok r) :
    (n < c.index → (getOrCreateMessageKeys tracing s t c n).work = []) ∧
    (c.index ≤ n → (getOrCreateMessageKeys tracing s t c n).work = chainSteps2 c.key (n - c.index)) := by
  unfold SessionCipher.getOrCreateMessageKeys at h
  unfold getOrCreateMessageKeys
  constructor
  · intro hlt
    rw [if_pos hlt] at h ⊢
    obtain ⟨b, hb, h⟩ := bind_eq_ok.1 h
    rw [work_ok ((value_lift _).trans hb), work_lift]
    cases b with
    | true => exact work_lift _
    | false => rfl
  · intro hle
    rw [if_neg (by omega)] at h ⊢
    split at h
    · cases h
    · rename_i hf
      rw [if_neg hf]
      obtain ⟨q, hq, h⟩ := bind_eq_ok.1 h
      obtain ⟨s2, hs2, h⟩ := bind_eq_ok.1 h
      rw [work_ok ((skipLoop_value ..).trans hq), skipLoop_steps2 hk hq, work_ok (getNextChainKey_value _), getNextChainKey_steps,
        work_ok ((value_lift _).trans hs2), work_lift, work_ok (getMessageKeys_value _), work_pure, List.append_nil]
      have he := skipped_chain hq
      rw [getMessageKeys_steps2 (by rw [he, ChainKey.iter_kdf]; exact hk), he, iter_key]
      unfold chainSteps2
      simp only [List.nil_append, List.append_assoc]

/-- One state that reads the message. -/
theorem state_steps2 (hC : C.Lawful) {s : SessionState} (hv : versionOf s = 2) {m : WhisperMessage} {seed : Bytes} {r : Bytes × SessionState}
    (h : SessionCipher.decryptWithSessionState s m seed = .ok r) : ReadSteps2 s m seed (decryptWithSessionState tracing s m seed).work := by
  obtain ⟨pt, s'⟩ := r
  have hlen := hC.hmac_len
  obtain ⟨hsc, hver, ck, s1, mk, s2, rid, lid, h1, h2, h3, h4, h5, h6, h7⟩ := SessionCipher.dwss_ok h
  have hm2 : ¬ 3 ≤ m.messageVersion := by rw [hver, getSessionVersion_two hv]; decide
  have hmac : MacStep2 m mk.macKey (.hmac mk.macKey (macData m rid lid)) :=
    macStep_of2 hm2 fun fit hf earlier => macFound hlen h5 hf earlier
  have hw : (decryptWithSessionState tracing s m seed).work = (getOrCreateChainKey tracing s m.senderRatchetKey seed).work ++
      ((getOrCreateMessageKeys tracing s1 m.senderRatchetKey ck m.counter).work ++
        (.hmac mk.macKey (macData m rid lid) :: openSteps mk.cipherKey m.ciphertext)) := by
    unfold decryptWithSessionState
    rw [if_neg (by rw [hsc]; simp), if_neg (by simpa using hver), work_ok ((getOrCreateChainKey_value ..).trans h1),
      work_ok ((getOrCreateMessageKeys_value ..).trans h2)]
    simp only
    rw [work_ok ((value_lift _).trans h3), work_lift, work_ok ((value_lift _).trans h4), work_lift,
      work_ok ((verifyMac_value ..).trans h5), verifyMac_trace, work_ok ((aesDecrypt_value ..).trans h6), work_pure, aesDecrypt_steps h6]
    simp
  rw [hw]
  obtain ⟨c0, hc0⟩ : ∃ c, s.senderChain = some c := by
    unfold hasSenderChain at hsc
    cases h : s.senderChain with
    | none => rw [h] at hsc; cases hsc
    | some c => exact ⟨c, rfl⟩
  have hk := SessionCipher.gocmk_ok h2
  obtain ⟨c, j, hc, hk⟩ := hk
  rcases SessionCipher.gocck_ok h1 with ⟨c1, j1, kdf, g1, g2, g3, g4⟩ | ⟨kdf, our, rk1, rk2, sck, g1, g2, g3, g4, g5, g6⟩
  · subst g4
    rw [g1] at hc
    obtain ⟨rfl, rfl⟩ := Prod.mk.inj (Option.some.inj (Except.ok.inj hc))
    obtain ⟨_, hcm, hck⟩ := SessionState.findChain_some g1
    have hcm := List.mem_of_getElem? hcm
    have hck := decodePoint_KeyOf hck
    rw [createFor_two hv] at g2
    obtain rfl := Except.ok.inj g2
    have hq := getOrCreateMessageKeys_steps2 (by rw [g3]; rfl) h2
    have hx : (getOrCreateChainKey tracing s1 m.senderRatchetKey seed).work = [] := by
      have hb : s1.hasReceiverChain m.senderRatchetKey = .ok true := by
        unfold hasReceiverChain
        rw [g1]
        rfl
      unfold getOrCreateChainKey
      rw [work_ok ((value_lift _).trans hb), work_lift, if_pos rfl, mapped_trace, work_lift]
      rfl
    rw [hx, List.nil_append]
    rcases hk with ⟨hlt, e, rest, ht, hmk, _⟩ | ⟨hle, hle2, _, hmk, _⟩
    · rw [hq.1 hlt]
      subst hmk
      obtain ⟨t1, t2⟩ := takeKey_mem ht
      exact .late hcm hck t1 t2 (by rw [g3] at hlt; exact hlt) hmac
    · rw [hq.2 hle]
      rw [getMessageKeys_v2 hlen _ (by rw [ChainKey.iter_kdf, g3]; rfl), iter_key] at hmk
      subst hmk
      refine .ahead (k := ck.key) hcm hck (by rw [g3]; rfl) ?_ (by omega) hmac
      have hi : (c1.chainKey.getD {}).index.getD 0 = ck.index := by rw [g3]; rfl
      omega
  · rw [createFor_two hv] at g2
    obtain rfl := Except.ok.inj g2
    have hpriv : our.priv = c0.senderRatchetKeyPrivate.getD [] := by
      unfold SessionState.getSenderRatchetKeyPair at g3
      obtain ⟨pub, _, g3⟩ := bind_eq_ok.1 g3
      obtain rfl := Except.ok.inj g3
      unfold senderChainD
      rw [hc0]
      rfl
    have hno : ¬ HasChainFor m s := findChain_none g1
    have h4' := g4
    have h5' := g5
    rw [createChain_of hlen] at g4
    cases hdh : C.dh our.priv m.senderRatchetKey with
    | none => rw [hdh] at g4; cases g4
    | some sec =>
    rw [hdh] at g4
    obtain ⟨rfl, rfl⟩ := Prod.mk.inj (Except.ok.inj g4)
    rw [createChain_of hlen] at g5
    cases hdh2 : C.dh (C.genPriv seed) m.senderRatchetKey with
    | none => rw [show C.dh (Curve.generateKeyPair seed).priv m.senderRatchetKey = none from hdh2] at g5; cases g5
    | some ours =>
    have hq := getOrCreateMessageKeys_steps2 rfl h2
    rcases hk with ⟨hlt, _⟩ | ⟨hle, hle2, _, hmk, _⟩
    · exact absurd hlt (by simp)
    rw [hq.2 hle]
    rw [getMessageKeys_v2 hlen _ (by rw [ChainKey.iter_kdf]), iter_key] at hmk
    subst hmk
    have hx : (getOrCreateChainKey tracing s m.senderRatchetKey seed).work =
        ratchetSteps2 (s.rootKey.getD []) (c0.senderRatchetKeyPrivate.getD []) m.senderRatchetKey seed sec ours := by
      have hb : s.hasReceiverChain m.senderRatchetKey = .ok false := by
        unfold hasReceiverChain
        rw [g1]
        rfl
      have hroot : s.getRootKey = .ok ⟨.v2, s.rootKey.getD []⟩ := by
        unfold SessionState.getRootKey
        rw [createFor_two hv]
        rfl
      unfold getOrCreateChainKey
      rw [work_ok ((value_lift _).trans hb), work_lift, if_neg (by simp), work_ok ((value_lift _).trans hroot), work_lift,
        work_ok ((value_lift _).trans g3), work_lift, work_ok ((createChain_value ..).trans h4'), createChain_steps2 rfl hdh,
        work_ok (generateKeyPair_value _), work_ok ((createChain_value ..).trans h5'), createChain_steps2 rfl hdh2]
      simp only
      rw [work_lift_bind fun _ => work_lift_bind fun _ => work_lift_bind fun _ => work_pure _, hpriv, List.append_nil]
      unfold ratchetSteps2
      simp
      rfl
    rw [hx, ← List.append_assoc]
    have := ReadSteps2.new (s := s) (m := m) (random := seed) hno hc0 (hpriv ▸ hdh) hdh2 rfl (by simpa using hle2) hmac
    simpa [chainOf] using this

end Work

theorem read_version2 {s : SessionState} {m : WhisperMessage} {seed : Bytes} {p : Bytes × SessionState} (hm : m.messageVersion = 2)
    (h : SessionCipher.decryptWithSessionState s m seed = .ok p) : versionOf s = 2 := by
  have h := (SessionCipher.dwss_ok (pt := p.1) (s' := p.2) h).2.1
  rw [hm, versionOf_eq] at h
  exact h.symm

theorem record_read2 (hC : C.Lawful) {r : SessionRecord} {m : WhisperMessage} {seed : Bytes} {seeds : Nat → Bytes} {q : Bytes × SessionRecord}
    (hm : m.messageVersion = 2) (h : SessionCipher.decryptWithSessionRecord r m seed seeds = .ok q) :
    ReadSteps2 r.sessionState m seed (Work.decryptWithSessionRecord tracing r m seed seeds).work ∨
    ∃ earlier t s j, s ∈ r.previousStates ∧ j < r.previousStates.length ∧
      (Work.decryptWithSessionRecord tracing r m seed seeds).work = earlier ++ t ∧ ReadSteps2 s m (seeds j) t := by
  rcases Work.record_steps ((Work.decryptWithSessionRecord_value ..).trans h) with ⟨p, h1, h2⟩ | ⟨e, s, j, p, h1, h2, h3, h4⟩
  · rw [h2]
    exact .inl (Work.state_steps2 hC (read_version2 hm h1) h1)
  · exact .inr ⟨e, _, s, j, h1, h2, h4, Work.state_steps2 hC (read_version2 hm h3) h3⟩

/-- **C117, reading**, in a version-2 session: a version-2 message that is read is read in these steps, by the current state at once, or by an archived one after others were
tried. -/
theorem C117_read2 (hC : C.Lawful) (w : World) (a : Address) (m : WhisperMessage) (seed pt : Bytes) (seeds : Nat → Bytes)
    (h : (SessionCipher.decryptMsg w a m seed seeds).result = .ok pt) (hm : m.messageVersion = 2) :
    ReadSteps2 (w.loadSession a).sessionState m seed (callTrace w (.decryptMsg a m seed seeds)) ∨
    ∃ earlier t s j, s ∈ (w.loadSession a).previousStates ∧ j < (w.loadSession a).previousStates.length ∧
      callTrace w (.decryptMsg a m seed seeds) = earlier ++ t ∧ ReadSteps2 s m (seeds j) t := by
  unfold callTrace
  simp only [Work.run, mapped_trace]
  unfold Work.decryptMsg
  unfold SessionCipher.decryptMsg at h
  rw [outcome_trace]
  by_cases hc : w.containsSession a = true
  · rw [if_neg (by simp [hc])] at h ⊢
    cases hd : SessionCipher.decryptWithSessionRecord (w.loadSession a) m seed seeds with
    | error e => rw [hd] at h; cases h
    | ok q =>
      have hmap : ∀ g : Bytes × SessionRecord → List Write × Bytes,
          ((Work.decryptWithSessionRecord tracing (w.loadSession a) m seed seeds) >>= fun r => pure (g r)).work =
          (Work.decryptWithSessionRecord tracing (w.loadSession a) m seed seeds).work := fun g => mapped_trace _ g
      rw [hmap]
      exact record_read2 hC hm hd
  · rw [if_pos (by simp [hc])] at h
    cases h

/-- **C117, reading a first message** that carries a message of version 2: the same, with the steps of reading of
version 2. -/
theorem C117_first2 (hC : C.Lawful) (w : World) (a : Address) (m : PreKeyWhisperMessage) (seed pt : Bytes) (seeds : Nat → Bytes)
    (h : (SessionCipher.decryptPkmsg w a m seed seeds).result = .ok pt) (hm : m.message.messageVersion = 2) :
    ∃ setting earlier t s random, callTrace w (.decryptPkmsg a m seed seeds) = setting ++ earlier ++ t ∧
      ((knowsBaseKey (w.loadSession a) m.version m.baseKey ∧ setting = []) ∨
        (NewSession w a m ∧ ∃ p, w.signedPreKeys m.signedPreKeyId = some p ∧
          AnswerSteps w.identityKeyPair.priv (p.privateKey.getD []) ((m.preKeyId.bind w.preKeys).map fun p => p.privateKey.getD [])
            m.identityKey m.baseKey setting)) ∧
      (s ∈ states (w.loadSession a) ∨ (NewSession w a m ∧ SetUp w m s)) ∧ (random = seed ∨ ∃ j, random = seeds j) ∧
      ReadSteps2 s m.message random t := by
  unfold callTrace
  simp only [Work.run, mapped_trace]
  unfold Work.decryptPkmsg
  unfold SessionCipher.decryptPkmsg at h
  rw [work_ok (Work.process_value ..)]
  simp only at h
  cases hp : (SessionBuilder.process w a (w.loadSession a) m).result with
  | error e => rw [hp] at h; cases h
  | ok x =>
    obtain ⟨r, u⟩ := x
    rw [hp] at h
    simp only at h ⊢
    have hst := Work.process_steps hp
    have hs : ∀ s ∈ states r, s ∈ states (w.loadSession a) ∨ (NewSession w a m ∧ SetUp w m s) := by
      intro s hs
      rcases (process_states hp).2 with h1 | ⟨h1, _⟩
      · exact .inl (h1 s hs)
      · exact (states_after_process hC hp hs).imp_right fun h => ⟨h1, h⟩
    cases hd : SessionCipher.decryptWithSessionRecord r m.message seed seeds with
    | error e => rw [hd] at h; cases h
    | ok q =>
      rw [work_ok (value_attempt _), work_attempt, Work.decryptWithSessionRecord_value, hd]
      simp only
      rw [work_pure, List.append_nil]
      rcases record_read2 hC hm hd with h1 | ⟨e, t, s, j, h1, _, h3, h4⟩
      · exact ⟨_, [], _, _, seed, by rw [List.append_nil], hst, hs _ (List.mem_cons_self ..), .inl rfl, h1⟩
      · exact ⟨_, e, t, s, seeds j, by rw [h3, List.append_assoc], hst, hs _ (List.mem_cons_of_mem _ h1), .inr ⟨j, rfl⟩, h4⟩

end

section
attribute [local instance] toy
open Example Spec

/-- The hypotheses of `C117_read2`: Alice reads what Bob wrote in a version-2 session. -/
example : (SessionCipher.decryptMsg old2WA bobAddr old2Msg (key 43) fun _ => key 44).result.toOption = some [104, 105] ∧
    old2Msg.messageVersion = 2 := by
  decide +kernel

/-- What Alice writes in the version-2 session, carried by their first message. -/
def carried : PreKeyWhisperMessage :=
  match (SessionCipher.encrypt old2WA bobAddr [104, 105]).result with
  | .ok c => { firstPk with message := c.inner }
  | .error _ => firstPk

/-- The hypotheses of `C117_first2`: Bob sets up a new session, and reads with the archived one of version 2. -/
example : (SessionCipher.decryptPkmsg old2WB aliceAddr carried (key 31) fun _ => key 32).result.toOption = some [104, 105] ∧
    carried.message.messageVersion = 2 := by
  decide +kernel

end
end Axolotl
