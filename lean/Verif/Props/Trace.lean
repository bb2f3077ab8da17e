import Verif.Proofs.Trace
import Verif.Props.GroupWork
import Verif.Props.Active
import Verif.Props.Version2

/-! # C110: the order in which the primitives are used -/

namespace Axolotl
section
variable [C : Crypto]
open Spec Logged Traced

/-- Writing down what is done does not change it. -/
theorem C110_same (w : World) (c : Call) : (Work.run tracing w c).value = .ok (c.run w) := Work.run_value w c

theorem C110_same_group (g : GroupStore) (c : GroupCall) : (Work.groupRun tracing g c).value = .ok (c.run g) := Work.groupRun_value g c

/-- What C108 and C109 count is what is written down here. -/
theorem C110_total (w : World) (c : Call) : callWork w c = total (callTrace w c) :=
  (congrArg Logged.work (Work.run_retell (f := fun o => [o]) (h := total) w c)).symm

theorem C110_total_group (g : GroupStore) (c : GroupCall) : groupCallWork g c = total (groupCallTrace g c) :=
  (congrArg Logged.work (Work.groupRun_retell (f := fun o => [o]) (h := total) g c)).symm

/-- **C110, reading.** Whatever the stores hold and whatever is in the message: before any block is decrypted the MAC of the message has
been computed and compared, it was the last thing done, and it was right; its key and the identity keys in it are those that a stored state
of this peer's record offers.  So a message without a right MAC never gets to the block cipher and to the check of the padding. -/
theorem C110_read (hlen : ∀ k m, (C.hmac k m).length = 32) (w : World) (a : Address) (m : WhisperMessage) (seed : Bytes)
    (seeds : Nat → Bytes) :
    MacThenDecrypt (fun k x y => ∃ s ∈ states (w.loadSession a), MacFrom s m k x y) m (callTrace w (.decryptMsg a m seed seeds)) := by
  unfold callTrace
  simp only [Work.run, mapped_trace]
  unfold Work.decryptMsg
  rw [outcome_trace]
  split
  · exact Work.nothing_found m (quiet_fail (α := List Write × Bytes) _).all
  · have : ∀ g : Bytes × SessionRecord → List Write × Bytes, ((Work.decryptWithSessionRecord tracing (w.loadSession a) m seed seeds) >>=
        fun r => pure (g r)).work = (Work.decryptWithSessionRecord tracing (w.loadSession a) m seed seeds).work := fun g => mapped_trace _ g
    rw [this]
    exact Work.record_shape hlen _ _ _ _ fun s hs k x y h => ⟨s, hs, h⟩

/-- The same for the first kind of message: the state is one stored for the peer, or the one that the message sets up. -/
theorem C110_read_first (hC : C.Lawful) (w : World) (a : Address) (m : PreKeyWhisperMessage) (seed : Bytes) (seeds : Nat → Bytes) :
    MacThenDecrypt (fun k x y => ∃ s, (s ∈ states (w.loadSession a) ∨ SetUp w m s) ∧ MacFrom s m.message k x y) m.message
      (callTrace w (.decryptPkmsg a m seed seeds)) := by
  unfold callTrace
  simp only [Work.run, mapped_trace]
  unfold Work.decryptPkmsg
  have hq : Quiet (Work.process tracing w a (w.loadSession a) m) := Work.process_quiet ..
  rw [work_ok (Work.process_value ..)]
  refine MacThenDecrypt.after ?_ hq.all
  split
  · exact Work.nothing_found _ (quiet_pure (α := Outcome Bytes) _).all
  · rename_i r u hr
    have hfit : ∀ s ∈ states r, ∀ k x y, MacFrom s m.message k x y →
        ∃ s, (s ∈ states (w.loadSession a) ∨ SetUp w m s) ∧ MacFrom s m.message k x y := by
      intro s hs k x y h
      refine ⟨s, ?_, h⟩
      unfold SessionBuilder.process at hr
      split at hr
      · cases hr
      · split at hr
        · cases hr
        · rename_i v hv
          obtain rfl := Except.ok.inj hr
          cases hkn : (w.loadSession a).hasSessionState m.version (Curve.serializePoint m.baseKey) with
          | true =>
            rcases processV3_ok hv with ⟨_, hx⟩ | ⟨hx, _⟩
            · obtain ⟨rfl, _⟩ := Prod.mk.inj hx
              exact .inl hs
            · rw [hkn] at hx; cases hx
          | false =>
            obtain ⟨s', hsu, he⟩ := setUp_of_process hC hkn hv
            simp only at he
            subst he
            rcases List.mem_cons.1 hs with hs | hs
            · exact .inr (hs ▸ hsu)
            · refine .inl ?_
              have hs : s ∈ (SessionBuilder.archiveUnlessFresh (w.loadSession a)).previousStates := hs
              unfold SessionBuilder.archiveUnlessFresh at hs
              split at hs
              · simp only [SessionRecord.archiveCurrentState, SessionRecord.promoteState] at hs
                split at hs
                · exact List.dropLast_subset _ hs
                · exact hs
              · exact List.mem_cons_of_mem _ hs
    rw [work_ok (value_attempt _), work_attempt]
    split
    · rw [work_pure, List.append_nil]; exact Work.record_shape hC.hmac_len _ _ _ _ hfit
    · rw [work_pure, List.append_nil]; exact Work.record_shape hC.hmac_len _ _ _ _ hfit

theorem unverified {fit : Bytes → ECPub → ECPub → Prop} {m : WhisperMessage} {t : List Op} (h : MacThenDecrypt fit m t)
    (hm : 3 ≤ m.messageVersion) (hno : ∀ k x y, fit k x y → ∃ s, MacFrom s m k x y ∧ Rejects m s) : ∀ o ∈ t, ¬ Deciphers o := by
  obtain ⟨before, blocks, key, rfl, h1, _, h3⟩ := h
  cases blocks with
  | nil => rw [List.append_nil]; exact h1
  | cons b blocks =>
    exfalso
    obtain ⟨e, k, x, y, body, mac, g0, _, g2, _, g4⟩ := h3 (List.cons_ne_nil _ _)
    obtain ⟨s, ⟨f0, f1, f2, f3⟩, hv, hn⟩ := hno k x y g0
    rw [if_pos hm] at g4
    rcases f1 with ⟨_, f1⟩ | ⟨f1, _⟩
    · exact hn ⟨k, x, y, body, f1, f2, f3, by rw [g2, g4]⟩
    · unfold versionOf at f1
      rw [hv f0] at f1
      cases f1

/-- **C110**, what this comes to: a message whose MAC verifies on no stored state does not reach the block cipher. -/
theorem C110_unverified (hlen : ∀ k m, (C.hmac k m).length = 32) (w : World) (a : Address) (m : WhisperMessage) (seed : Bytes)
    (seeds : Nat → Bytes) (hm : 3 ≤ m.messageVersion) (hno : ∀ s ∈ states (w.loadSession a), Rejects m s) :
    ∀ o ∈ callTrace w (.decryptMsg a m seed seeds), ¬ Deciphers o :=
  unverified (C110_read hlen w a m seed seeds) hm fun _ _ _ ⟨s, hs, hf⟩ => ⟨s, hf, hno s hs⟩

/-- The same for the first kind of message. -/
theorem C110_unverified_first (hC : C.Lawful) (w : World) (a : Address) (m : PreKeyWhisperMessage) (seed : Bytes)
    (seeds : Nat → Bytes) (hm : 3 ≤ m.message.messageVersion) (hno : ∀ s ∈ states (w.loadSession a), Rejects m.message s)
    (hsu : ∀ s, SetUp w m s → ¬ Verifies s m.message) :
    ∀ o ∈ callTrace w (.decryptPkmsg a m seed seeds), ¬ Deciphers o :=
  unverified (C110_read_first hC w a m seed seeds) hm fun _ _ _ ⟨s, hs, hf⟩ =>
    ⟨s, hf, hs.elim (hno s) fun h => ⟨fun _ => setUp_version h, hsu s h⟩⟩

theorem unverified2 {fit : Bytes → ECPub → ECPub → Prop} {m : WhisperMessage} {t : List Op} (h : MacThenDecrypt fit m t)
    (hm : m.messageVersion < 3) (hno : ∀ k x y, fit k x y → ∃ s, MacFrom s m k x y ∧ versionOf s = 2 ∧ ¬ Verifies2 s m) : ∀ o ∈ t, ¬ Deciphers o := by
  obtain ⟨before, blocks, key, rfl, h1, _, h3⟩ := h
  cases blocks with
  | nil => rw [List.append_nil]; exact h1
  | cons b blocks =>
    exfalso
    obtain ⟨e, k, x, y, body, mac, g0, _, g2, _, g4⟩ := h3 (List.cons_ne_nil _ _)
    obtain ⟨s, ⟨_, f1, _, _⟩, hv, hn⟩ := hno k x y g0
    rw [if_neg (by omega), List.nil_append] at g4
    rcases f1 with ⟨f1, _⟩ | ⟨_, ck, iv, f1⟩
    · rw [hv] at f1; cases f1
    · exact hn ⟨ck, k, iv, body, f1, by rw [g2, g4]⟩

/-- The same for messages and sessions of version 2. -/
theorem C110_unverified_version2 (hlen : ∀ k m, (C.hmac k m).length = 32) (w : World) (a : Address) (m : WhisperMessage) (seed : Bytes)
    (seeds : Nat → Bytes) (hm : m.messageVersion < 3) (hno : ∀ s ∈ states (w.loadSession a), versionOf s = 2 ∧ ¬ Verifies2 s m) :
    ∀ o ∈ callTrace w (.decryptMsg a m seed seeds), ¬ Deciphers o :=
  unverified2 (C110_read hlen w a m seed seeds) hm fun _ _ _ ⟨s, hs, hf⟩ => ⟨s, hf, hno s hs⟩

/-- **C110, bundles.** Nothing is done before the signature of the signed prekey is checked, and nothing after it if it is wrong. -/
theorem C110_bundle (w : World) (a : Address) (b : PreKeyBundle) (s1 s2 : Bytes) :
    (b.signedPreKey = none → callTrace w (.processBundle a b s1 s2) = []) ∧
    ∀ spk, b.signedPreKey = some spk →
      SignatureFirst b.identityKey (5 :: spk) b.signedPreKeySignature (callTrace w (.processBundle a b s1 s2)) := by
  unfold callTrace
  simp only [Work.run, mapped_trace]
  unfold Work.processPreKeyBundle
  rw [outcome_trace]
  by_cases ht : (!w.isTrusted a.1 b.identityKey) = true
  · rw [if_pos ht]
    exact ⟨fun _ => rfl, fun _ _ => .inl rfl⟩
  · rw [if_neg ht]
    refine ⟨fun h => by rw [h]; rfl, fun spk h => .inr ?_⟩
    rw [h]
    exact Work.gate_trace ..

/-- **C110, key exchange.** The same for the message that begins a key exchange. -/
theorem C110_initiate (w : World) (a : Address) (m : KeyExchangeMessage) (rnd : SessionBuilder.InitiateRand) (hm : m.isInitiate = true) :
    SignatureFirst m.identityKey (5 :: m.baseKey) m.baseKeySignature (callTrace w (.processKeyExchange a m rnd)) := by
  unfold callTrace
  simp only [Work.run, mapped_trace]
  unfold Work.processKeyExchangeMessage
  by_cases ht : (!w.isTrusted a.1 m.identityKey) = true
  · rw [if_pos ht]; exact .inl rfl
  · rw [if_neg ht, if_pos hm]
    unfold Work.processInitiate
    rw [work_ok (value_attempt _), work_attempt]
    obtain ⟨rest, h1, h2⟩ : ∃ rest, (Work.processInitiateState tracing w a m rnd).work =
        .verifySig m.identityKey (5 :: m.baseKey) m.baseKeySignature :: rest ∧
        (rest ≠ [] → C.verifySig m.identityKey (5 :: m.baseKey) m.baseKeySignature = some true) := Work.gate_trace ..
    rw [h1]
    refine .inr ⟨_, rfl, fun hne => ?_⟩
    refine Classical.byContradiction fun hbad => hne ?_
    obtain ⟨e, he⟩ : ∃ e, (Work.processInitiateState tracing w a m rnd).value = .error e := Work.gate_value hbad ..
    rw [he]
    refine (congrArg (_ ++ ·) (work_pure _)).trans ?_
    rw [List.append_nil]
    exact Classical.byContradiction fun q => hbad (h2 q)

/-- **C110, responses.** It is not so for the answer: the signature is checked last, after the agreements with the keys in it. -/
theorem C110_response (w : World) (a : Address) (m : KeyExchangeMessage) (rnd : SessionBuilder.InitiateRand) (hm : m.isInitiate = false)
    (hv : ∃ k d s, .verifySig k d s ∈ callTrace w (.processKeyExchange a m rnd)) :
    ∃ earlier priv, callTrace w (.processKeyExchange a m rnd) =
        earlier ++ [.verifySig m.identityKey (5 :: m.baseKey) m.baseKeySignature] ∧ .dh priv m.baseKey ∈ earlier := by
  unfold callTrace at hv ⊢
  simp only [Work.run, mapped_trace] at hv ⊢
  unfold Work.processKeyExchangeMessage at hv ⊢
  obtain ⟨k, d, s, hv⟩ := hv
  by_cases ht : (!w.isTrusted a.1 m.identityKey) = true
  · rw [if_pos ht] at hv; cases hv
  rw [if_neg ht, if_neg (by rw [hm]; decide)] at hv ⊢
  unfold Work.processResponse at hv ⊢
  simp only at hv ⊢
  split at hv
  · split at hv <;> cases hv
  rename_i hp
  rw [if_neg hp]
  rw [outcome_trace] at hv ⊢
  cases h1 : (w.loadSession a).sessionState.getPendingKeyExchangeBaseKey with
  | error e => rw [work_error ((value_lift _).trans h1), work_lift] at hv; cases hv
  | ok bk =>
  rw [work_ok ((value_lift _).trans h1), work_lift] at hv
  rw [work_ok (value_lift _), work_lift]
  cases h2 : (w.loadSession a).sessionState.getPendingKeyExchangeRatchetKey with
  | error e => rw [work_error ((value_lift _).trans h2), work_lift] at hv; cases hv
  | ok rk =>
  rw [work_ok ((value_lift _).trans h2), work_lift] at hv
  rw [work_ok (value_lift _), work_lift]
  cases h3 : (w.loadSession a).sessionState.getPendingKeyExchangeIdentityKey with
  | error e => rw [work_error ((value_lift _).trans h3), work_lift] at hv; cases hv
  | ok ik =>
  rw [work_ok ((value_lift _).trans h3), work_lift] at hv
  rw [work_ok (value_lift _), work_lift]
  simp only [List.nil_append] at hv ⊢
  generalize hst : (SessionBuilder.archiveUnlessFresh (w.loadSession a)).sessionState = st at hv ⊢
  generalize hpp : SymmetricParameters.mk bk rk ik m.baseKey m.ratchetKey m.identityKey = p at hv ⊢
  have hpb : p.theirBaseKey = m.baseKey := by rw [← hpp]
  have hq := (Work.initializeSession_quiet st p rnd.sendSeed).loud
  cases h4 : RatchetingSession.initializeSession st p rnd.sendSeed with
  | error e =>
    rw [work_error ((Work.initializeSession_value ..).trans h4)] at hv
    exact (hq _ hv trivial).elim
  | ok s' =>
    obtain ⟨priv, hd⟩ := Work.initializeSession_agrees h4
    rw [hpb] at hd
    rw [work_ok ((Work.initializeSession_value ..).trans h4)]
    refine ⟨_, priv, congrArg (_ ++ ·) ?_, hd⟩
    cases h5 : Curve.verifySignature m.identityKey (Curve.serializePoint m.baseKey) m.baseKeySignature with
    | error e => rw [work_error ((Work.verifySignature_value ..).trans h5), Work.verifySignature_trace]; rfl
    | ok b =>
      rw [work_ok ((Work.verifySignature_value ..).trans h5), Work.verifySignature_trace]
      cases b <;> rfl

/-- **C110, groups.** Nothing is done before the signature of a group message is checked, and nothing after it if it is wrong. -/
theorem C110_group (g : GroupStore) (n : SenderKeyName) (body sig : Bytes) (m : SenderKeyMessage) (s : SenderKeyStateS) (pub : ECPub)
    (hsig : sig.length = 64) (hm : SenderKeyMessage.parse (body ++ sig) = .ok m) (hs : stateFor (g n) m.keyId = some s)
    (hpub : KeyOf (s.senderSigningKey.getD {}).pub pub) :
    SignatureFirst pub body sig (groupCallTrace g (.decrypt n (body ++ sig))) := by
  unfold groupCallTrace
  simp only [Work.groupRun, mapped_trace]
  unfold Work.groupDecrypt
  rw [work_ok (value_attempt _), work_attempt]
  have hpost : ∀ x : Res (Bytes × SenderKeyRecord), (match x with
      | .ok (pt, r) => (pure ⟨some r, .ok pt⟩ : Traced (GOutcome Bytes))
      | .error e => pure ⟨none, GroupCipher.wrapInvalid (.error e)⟩).work = [] := by
    intro x; split <;> rfl
  refine Eq.subst (motive := SignatureFirst pub body sig) (congrArg (_ ++ ·) (?_ : _ = ([] : List Op))).symm ?_
  · split <;> rfl
  rw [List.append_nil]
  unfold Work.decryptWithRecord
  obtain ⟨j, hj⟩ := SenderKeyRecord.getStateById_some hs
  have hk : SenderKeyState.getSigningKeyPublic s = .ok pub := KeyOf_iff.1 hpub
  have hser := senderkey_parse_serialized hm
  rw [if_neg (stateFor_ne hs), work_ok ((value_lift _).trans hm), work_lift, work_ok ((value_lift _).trans hj), work_lift]
  simp only
  rw [work_ok ((value_lift _).trans hk), work_lift]
  simp only [List.nil_append]
  have ht := Work.verifySenderKeyMessage_trace hser hsig pub
  have hs2 := verify_signed hser hsig (k := pub)
  cases h : C.verifySig pub body sig with
  | none =>
    rw [h] at hs2
    rw [work_error ((Work.verifySenderKeyMessage_value ..).trans hs2), ht]
    exact .inr ⟨[], rfl, fun q => absurd rfl q⟩
  | some b =>
    rw [h] at hs2
    cases b with
    | false =>
      rw [work_error ((Work.verifySenderKeyMessage_value ..).trans hs2), ht]
      exact .inr ⟨[], rfl, fun q => absurd rfl q⟩
    | true =>
      rw [work_ok ((Work.verifySenderKeyMessage_value ..).trans hs2), ht]
      exact .inr ⟨_, rfl, fun _ => h⟩

omit C in
theorem preKey_create_message {v reg : Nat} {pk : Option Nat} {spk : Int} {b i : ECPub} {m : WhisperMessage} {pm : PreKeyWhisperMessage}
    (h : PreKeyWhisperMessage.create v reg pk spk b i m = .ok pm) : pm.message = m := by
  unfold PreKeyWhisperMessage.create at h
  obtain ⟨_, _, h⟩ := bind_eq_ok.1 h
  obtain ⟨_, _, h⟩ := bind_eq_ok.1 h
  cases pk with
  | none =>
    obtain ⟨_, _, h⟩ := bind_eq_ok.1 h
    cases h
    rfl
  | some i =>
    obtain ⟨_, _, h⟩ := bind_eq_ok.1 h
    obtain ⟨_, _, h⟩ := bind_eq_ok.1 h
    cases h
    rfl

omit C in
theorem sent_with (s : SessionState) : (s.senderChainD.chainKey.getD {}).key.getD [] = sendKey s := by
  unfold sendKey SessionState.senderChainD
  cases h : s.senderChain with
  | none => rfl
  | some c =>
    cases c with
    | mk a b k d => cases k <;> rfl

/-- **C110, writing.** A message is encrypted first and authenticated afterwards, over the ciphertext; then the chain is stepped.  Which
primitives are used does not depend on what is said, but on the number of its blocks. -/
theorem C110_write (hlen : ∀ k m, (C.hmac k m).length = 32) (w : World) (a : Address) (pt : Bytes) (c : Ciphertext)
    (h : (SessionCipher.encrypt w a pt).result = .ok c) :
    ∃ keys blocks mac chainKey, callTrace w (.encrypt a pt) = keys ++ blocks ++ [mac] ++ [.hmac chainKey [2]] ∧
      MacFound (MacTo (w.loadSession a).sessionState) c.inner (keys ++ blocks ++ [mac]) ∧ keys.map kind = List.replicate 5 .hmac ∧
      blocks.map kind = List.replicate (pt.length / 16 + 1) .aesEnc ∧ kind mac = .hmac := by
  unfold callTrace
  simp only [Work.run, mapped_trace]
  unfold Work.encrypt
  unfold SessionCipher.encrypt at h
  simp only at h
  rw [outcome_trace]
  simp only
  cases he : SessionCipher.encryptWithState (w.loadSession a).sessionState pt with
  | error e => rw [he] at h; cases h
  | ok r =>
    rw [he] at h
    cases h
    have hmap : ∀ g : Ciphertext × SessionState → List Write × Ciphertext,
        ((Work.encryptWithState tracing (w.loadSession a).sessionState pt) >>= fun r => pure (g r)).work =
        (Work.encryptWithState tracing (w.loadSession a).sessionState pt).work := fun g => mapped_trace _ g
    rw [hmap]
    unfold SessionCipher.encryptWithState at he
    obtain ⟨ck, h1, he⟩ := bind_eq_ok.1 he
    obtain ⟨rk, h2, he⟩ := bind_eq_ok.1 he
    obtain ⟨ct, h3, he⟩ := bind_eq_ok.1 he
    obtain ⟨l, h4, he⟩ := bind_eq_ok.1 he
    obtain ⟨rm, h5, he⟩ := bind_eq_ok.1 he
    obtain ⟨m, h6, he⟩ := bind_eq_ok.1 he
    obtain ⟨o, h7, h8, h9⟩ := Work.createWhisperMessage_trace hlen h6
    have hk := Work.getMessageKeys_kinds ck
    have hto : MacTo (w.loadSession a).sessionState ck.getMessageKeys.macKey l rm := by
      refine ⟨?_, decodePoint_KeyOf h4, decodePoint_KeyOf h5⟩
      unfold SessionState.getSenderChainKey at h1
      by_cases v3 : versionOf (w.loadSession a).sessionState = 3
      · rw [createFor_three (Work.version_three v3)] at h1
        obtain rfl := Except.ok.inj h1
        rw [getMessageKeys_v3 hlen _ rfl]
        exact .inl ⟨v3, congrArg macKeyOf (sent_with _)⟩
      by_cases v2 : versionOf (w.loadSession a).sessionState = 2
      · rw [createFor_two v2] at h1
        obtain rfl := Except.ok.inj h1
        rw [getMessageKeys_v2 hlen _ rfl]
        exact .inr ⟨v2, congrArg macKeyOf2 (sent_with _)⟩
      rw [Work.createFor_other v2 v3] at h1
      cases h1
    have hb := Work.aesEncrypt_kinds h3
    unfold Work.encryptWithState
    rw [work_ok ((value_lift _).trans h1), work_lift, work_ok (Work.getMessageKeys_value _), work_ok ((value_lift _).trans h2), work_lift]
    simp only
    rw [work_ok ((Work.aesEncrypt_value ..).trans h3), work_ok ((value_lift _).trans h4), work_lift,
      work_ok ((value_lift _).trans h5), work_lift, work_ok ((Work.createWhisperMessage_value ..).trans h6), h7]
    have fin : ∀ {r : Ciphertext × SessionState} (t : List Op), r.1.inner = m → t = [.hmac ck.key [2]] →
        ∃ keys blocks mac chainKey, [] ++ ((Work.getMessageKeys tracing ck).work ++ ([] ++
          ((Work.aesEncrypt tracing ck.getMessageKeys.cipherKey ck.getMessageKeys.iv pt).work ++ ([] ++ ([] ++ ([o] ++ t)))))) =
            keys ++ blocks ++ [mac] ++ [.hmac chainKey [2]] ∧
          MacFound (MacTo (w.loadSession a).sessionState) r.1.inner (keys ++ blocks ++ [mac]) ∧
          keys.map kind = List.replicate 5 .hmac ∧ blocks.map kind = List.replicate (pt.length / 16 + 1) .aesEnc ∧ kind mac = .hmac := by
      intro r t hr ht
      refine ⟨_, _, o, ck.key, ?_, by rw [hr]; exact h9 _ hto _, hk, hb, h8⟩
      rw [ht]
      simp only [List.nil_append, List.append_assoc]
    by_cases hu : (w.loadSession a).sessionState.hasUnacknowledgedPreKeyMessage
    · rw [if_pos hu] at he ⊢
      obtain ⟨it, g1, he⟩ := bind_eq_ok.1 he
      obtain ⟨pm, g2, he⟩ := bind_eq_ok.1 he
      obtain ⟨c, hc, he⟩ := bind_eq_ok.1 he
      cases hc
      obtain ⟨s', g3, he⟩ := bind_eq_ok.1 he
      cases he
      refine fin _ (preKey_create_message g2) ?_
      rw [work_ok ((value_lift _).trans g1), work_lift, work_ok ((value_lift _).trans g2), work_lift, work_ok (value_pure _), work_pure,
        work_ok (Work.getNextChainKey_value _), work_ok ((value_lift _).trans g3), work_lift, work_pure]
      rfl
    · rw [if_neg hu] at he ⊢
      obtain ⟨c, hc, he⟩ := bind_eq_ok.1 he
      cases hc
      obtain ⟨s', g3, he⟩ := bind_eq_ok.1 he
      cases he
      refine fin _ rfl ?_
      rw [work_ok (value_pure _), work_pure, work_ok (Work.getNextChainKey_value _), work_ok ((value_lift _).trans g3), work_lift, work_pure]
      rfl

/-- The same in groups: the ciphertext is signed, and nothing but the step of the chain comes after the signature. -/
theorem C110_group_write (g : GroupStore) (n : SenderKeyName) (pt rand b : Bytes) (h : (GroupCipher.encrypt g n pt rand).result = .ok b) :
    ∃ keys blocks priv body sig chainKey, groupCallTrace g (.encrypt n pt rand) =
        keys ++ blocks ++ [.calcSig rand priv body] ++ [.hmac chainKey [2]] ∧ b = body ++ sig ∧ C.calcSig rand priv body = some sig ∧
      keys.map kind = List.replicate 4 .hmac ∧ blocks.map kind = List.replicate (pt.length / 16 + 1) .aesEnc := by
  unfold groupCallTrace
  simp only [Work.groupRun, mapped_trace]
  unfold Work.groupEncrypt
  rw [work_ok (value_attempt _), work_attempt]
  unfold GroupCipher.encrypt at h
  cases he : GroupCipher.encryptWithRecord (g n) pt rand with
  | error e =>
    rw [he] at h
    simp only [GroupCipher.wrapNoSession] at h
    split at h <;> cases h
  | ok r =>
    rw [he] at h
    cases h
    rw [Work.encryptWithRecord_value, he]
    unfold GroupCipher.encryptWithRecord at he
    obtain ⟨st, h1, he⟩ := bind_eq_ok.1 he
    obtain ⟨ct, h2, he⟩ := bind_eq_ok.1 he
    obtain ⟨m, h3, he⟩ := bind_eq_ok.1 he
    obtain ⟨st', h4, he⟩ := bind_eq_ok.1 he
    cases he
    have hb := Work.aesEncrypt_kinds h2
    have hk := Work.getSenderMessageKey_kinds (SenderKeyState.getSenderChainKey st)
    obtain ⟨priv, body, sig, q1, q2, q3⟩ := Work.createSenderKeyMessage_trace h3
    unfold Work.encryptWithRecord
    simp only
    rw [work_ok ((value_lift _).trans h1), work_lift, work_ok (Work.getSenderMessageKey_value _), work_ok ((Work.aesEncrypt_value ..).trans h2),
      work_ok ((Work.createSenderKeyMessage_value ..).trans h3), q1, work_ok (Work.getNext_value _), work_ok ((value_lift _).trans h4),
      work_lift, work_pure, work_pure]
    refine ⟨_, _, priv, body, sig, (SenderKeyState.getSenderChainKey st).chainKey, ?_, q2, q3, hk, hb⟩
    simp only [List.nil_append, List.append_nil, List.append_assoc]
    rfl

end

/-! ## Non-vacuity -/

section
variable [C : Crypto]
open Spec

/-- What the shapes forbid: a block without a MAC before it, anything before the signature, anything after a wrong one. -/
example (fit : Bytes → ECPub → ECPub → Prop) (m : WhisperMessage) (k b : Bytes) :
    ¬ MacThenDecrypt fit m [.aesDec k b] ∧ ¬ MacThenDecrypt fit m [.genPub k, .aesDec k b] := by
  constructor
  · rintro ⟨before, blocks, key, h, h1, h2, h3⟩
    match before with
    | [] =>
      obtain ⟨e, _, _, _, _, _, _, h4, _⟩ := h3 (by rw [← List.nil_append blocks, ← h]; exact List.cons_ne_nil _ _)
      exact absurd h4 (by simp)
    | o :: before => injection h with h _; subst h; exact h1 _ (List.mem_cons_self ..) trivial
  · rintro ⟨before, blocks, key, h, h1, h2, h3⟩
    match before with
    | [] =>
      obtain ⟨_, h4⟩ := h2 (.genPub k) (by rw [← List.nil_append blocks, ← h]; exact List.mem_cons_self ..)
      cases h4
    | [o] =>
      cases h
      obtain ⟨e, _, _, _, _, _, _, h4, _⟩ := h3 (List.cons_ne_nil _ _)
      match e with
      | [] => cases h4
      | _ :: e => exact absurd (congrArg List.length h4) (by simp)
    | o :: o' :: before => injection h with _ h; injection h with h _; subst h; exact h1 _ (List.mem_cons_of_mem _ (List.mem_cons_self ..)) trivial

example (k d s r : Bytes) (rest : List Op) : ¬ SignatureFirst k d s (.genPriv r :: rest) ∧
    (SignatureFirst k d s (.verifySig k d s :: .genPriv r :: rest) → C.verifySig k d s = some true) := by
  constructor
  · rintro (h | ⟨_, h, _⟩) <;> cases h
  · rintro (h | ⟨_, h, h2⟩)
    · cases h
    · cases h; exact h2 (List.cons_ne_nil _ _)

end

section
attribute [local instance] toy
open Example Spec

/-- Reading a genuine answer: a ratchet step, message keys, the MAC, one block.  With a byte of the MAC changed there is no block.  A bundle
with a wrong signature costs one check and nothing else. -/
example : (callTrace alice2 (.decryptMsg bobAddr replyMsg (key 43) (fun _ => key 44))).map kind =
      [.dh, .hmac, .hmac, .hmac, .genPriv, .genPub, .dh, .hmac, .hmac, .hmac, .hmac, .hmac, .hmac, .hmac, .hmac, .hmac, .hmac, .aesDec] ∧
    (callTrace alice2 (.decryptMsg bobAddr { replyMsg with serialized := replyMsg.serialized.dropLast ++ [7] } (key 43)
      (fun _ => key 44))).map kind =
      [.dh, .hmac, .hmac, .hmac, .genPriv, .genPub, .dh, .hmac, .hmac, .hmac, .hmac, .hmac, .hmac, .hmac, .hmac, .hmac, .hmac] ∧
    callTrace alice0 (.processBundle bobAddr { bobBundle with signedPreKeySignature := [1] } (key 41) (key 42)) =
      [.verifySig bobBundle.identityKey (5 :: bobBundle.signedPreKey.getD []) [1]] ∧
    (callTrace alice1 (.encrypt bobAddr [104, 105])).map kind = [.hmac, .hmac, .hmac, .hmac, .hmac, .aesEnc, .hmac, .hmac] := by
  decide +kernel

/-- `C110_response` applies to an answer with a wrong signature, which is refused: but first three agreements were made with its base key,
one of them with Alice's identity key. -/
example : (SessionBuilder.processKeyExchangeMessage keAlice1 bobAddr { keAnswerMsg with baseKeySignature := [1] }
      ⟨key 81, key 82, key 83, key 84⟩).result.toOption = none ∧
    keAnswerMsg.isInitiate = false ∧
    .verifySig keAnswerMsg.identityKey (5 :: keAnswerMsg.baseKey) [1] ∈
      callTrace keAlice1 (.processKeyExchange bobAddr { keAnswerMsg with baseKeySignature := [1] } ⟨key 81, key 82, key 83, key 84⟩) ∧
    .dh keAlice1.identityKeyPair.priv keAnswerMsg.baseKey ∈
      callTrace keAlice1 (.processKeyExchange bobAddr { keAnswerMsg with baseKeySignature := [1] } ⟨key 81, key 82, key 83, key 84⟩) := by
  decide +kernel

/-- The hypotheses of `C110_initiate` and `C110_group`: Bob is asked for a key exchange, a member reads a message, or gets one with a wrong
signature, the owner sends one (`C110_group_write`). -/
example : keAskMsg.isInitiate = true ∧
    (callTrace bob0 (.processKeyExchange aliceAddr keAskMsg keRand)).head? =
      some (.verifySig keAskMsg.identityKey (5 :: keAskMsg.baseKey) keAskMsg.baseKeySignature) ∧
    callTrace bob0 (.processKeyExchange aliceAddr { keAskMsg with baseKeySignature := [1] } keRand) =
      [.verifySig keAskMsg.identityKey (5 :: keAskMsg.baseKey) [1]] ∧
    (grpSent[0]?.map fun x => (groupCallTrace grpMember (.decrypt grp x.bytes)).map kind) =
      some [.verifySig, .hmac, .hmac, .hmac, .hmac, .hmac, .aesDec] ∧
    (grpSent[0]?.map fun x => (groupCallTrace grpMember (.decrypt grp (x.bytes.dropLast ++ [7]))).map kind) = some [.verifySig] ∧
    (groupCallTrace ((GroupCall.create grp grpRand).next GroupStore.empty) (.encrypt grp [1] (key 9))).map kind =
      [.hmac, .hmac, .hmac, .hmac, .aesEnc, .calcSig, .hmac] := by
  decide +kernel

/-- The version-2 message of C79 with its last byte changed. -/
def old2Bad : WhisperMessage := { old2Msg with serialized := old2Msg.serialized.dropLast ++ [7] }

def old2BadKey (k : Bytes) : Bool :=
  old2Bad.serialized == old2Bad.serialized.take (old2Bad.serialized.length - 8) ++
    (toy.hmac k (old2Bad.serialized.take (old2Bad.serialized.length - 8))).take 8

/-- The hypotheses of `C110_unverified_version2`: the message of C79 with the last byte of the MAC changed. -/
example : old2Bad.messageVersion < 3 ∧ ∀ s ∈ states (old2WA.loadSession bobAddr), versionOf s = 2 ∧ ¬ Verifies2 s old2Bad := by
  refine ⟨by decide +kernel, fun s hs => ?_⟩
  obtain rfl := List.mem_singleton.1 (show s ∈ [old2Alice.sessionState] from hs)
  refine ⟨rfl, ?_⟩
  rintro ⟨ck, mk, iv, body, hk, hm⟩
  have hb : old2BadKey mk = true := by
    have hl : ((toy.hmac mk body).take 8).length = 8 := by rw [List.length_take, toy_lawful.hmac_len]; rfl
    have hn : old2Bad.serialized.take (old2Bad.serialized.length - 8) = body := by
      rw [hm, List.length_append, hl, Nat.add_sub_cancel, List.take_left]
    unfold old2BadKey
    rw [hn]
    exact beq_iff_eq.2 hm
  cases hk with
  | stored hc _ he _ =>
    obtain rfl := List.mem_singleton.1 hc
    cases he
  | ahead hc _ _ hk =>
    obtain rfl := List.mem_singleton.1 hc
    subst hk
    exact absurd hb (by decide +kernel)
  | ratchet hc hd hk =>
    obtain rfl := Option.some.inj hc
    have hd := congrArg (fun o => Option.getD o []) hd
    subst hk
    simp only [Option.getD_some] at hd
    subst hd
    exact absurd hb (by decide +kernel)

/-- The hypotheses of `C110_unverified`: the answer with a byte of the MAC changed verifies nowhere; with the right MAC it does. -/
example : (∀ s ∈ states (alice2.loadSession bobAddr), Rejects { replyMsg with serialized := replyMsg.serialized.dropLast ++ [7] } s) ∧
    3 ≤ replyMsg.messageVersion ∧
    ∃ s ∈ states (alice2.loadSession bobAddr), Verifies s replyMsg := by
  refine ⟨fun s hs => rejects_of toy_lawful ?_, by decide +kernel, ?_⟩
  · have h : ((states (alice2.loadSession bobAddr)).all
        (rejectsB { replyMsg with serialized := replyMsg.serialized.dropLast ++ [7] })) = true := by decide +kernel
    exact List.all_eq_true.1 h s hs
  · have h : (SessionCipher.decryptMsg alice2 bobAddr replyMsg (key 43) (fun _ => key 44)).result = .ok [121, 111] := by decide +kernel
    have hp : (alice2.loadSession bobAddr).previousStates = [] := by decide +kernel
    have hv : (alice2.loadSession bobAddr).sessionState.sessionVersion = some 3 := by decide +kernel
    unfold SessionCipher.decryptMsg at h
    have hc : alice2.containsSession bobAddr = true := by decide +kernel
    rw [hc] at h
    cases hd : SessionCipher.decryptWithSessionRecord (alice2.loadSession bobAddr) replyMsg (key 43) (fun _ => key 44) with
    | error e => rw [hd] at h; cases h
    | ok r =>
      obtain ⟨s, hs, seed, s', h1⟩ := dwsr_state (pt := r.1) (r' := r.2) hd
      refine ⟨s, hs, verifies_of_dwss toy_lawful (fun _ => ?_) h1⟩
      unfold states at hs
      rw [hp] at hs
      rw [List.mem_singleton.1 hs, hv]

end
end Axolotl
