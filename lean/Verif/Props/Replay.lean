import Verif.Proofs.Spine
import Verif.Proofs.Replay
import Verif.Props.Records
import Verif.Props.PreKeys

/-! # C19, C21, C23: replays, the window for messages from the future, stored keys -/

namespace Axolotl
section
variable [C : Crypto]
open SessionState SessionBuilder Spec

/-! ## C19: replays -/

theorem reachable_good (hC : C.Lawful) {w0 : World} (hw : w0.NoSessions) (cs : List Call) (a : Address) :
    ((Call.after w0 cs).loadSession a).All GoodChains := by
  unfold World.loadSession
  cases h : (Call.after w0 cs).sessions a with
  | none => exact ⟨(goodChains_inv hC).empty, by intro s hs; cases hs⟩
  | some r => exact reachable_all (goodChains_inv hC) w0 hw cs a r h

/-- The record after an accepted message, and that its current state has used the message up. -/
theorem decryptMsg_accepted (hC : C.Lawful) {w : World} {a : Address} (hg : (w.loadSession a).All GoodChains)
    {m : WhisperMessage} {seed : Bytes} {seeds : Nat → Bytes} {pt : Bytes}
    (h : (SessionCipher.decryptMsg w a m seed seeds).result = .ok pt) :
    ∃ r1, ((SessionCipher.decryptMsg w a m seed seeds).final w).sessions a = some r1 ∧
      UsedUp m r1.sessionState := by
  unfold SessionCipher.decryptMsg at h ⊢
  cases hc : w.containsSession a with
  | false => rw [hc] at h; cases h
  | true =>
    rw [hc] at h
    simp only [Bool.not_true, Bool.false_eq_true, if_false] at h ⊢
    cases hd : SessionCipher.decryptWithSessionRecord (w.loadSession a) m seed seeds with
    | error e => rw [hd] at h; cases h
    | ok x =>
      refine ⟨x.2, ?_, usedUp_accepted hC hg hd⟩
      simp [Outcome.ofRes, Outcome.final, World.applyAll, World.apply, upd]

theorem decryptPkmsg_accepted (hC : C.Lawful) {w : World} {a : Address} (hg : (w.loadSession a).All GoodChains)
    {p : PreKeyWhisperMessage} {seed : Bytes} {seeds : Nat → Bytes} {pt : Bytes}
    (h : (SessionCipher.decryptPkmsg w a p seed seeds).result = .ok pt) :
    ∃ r1, ((SessionCipher.decryptPkmsg w a p seed seeds).final w).sessions a = some r1 ∧
      UsedUp p.message r1.sessionState := by
  rcases decryptPkmsg_cases w a p seed seeds with ⟨_, he⟩ | ⟨_, ⟨e, _, he⟩ | ⟨r, u, e, _, _, he⟩ | ⟨r, u, pt', r2, hv, hd, he⟩⟩
  · rw [he] at h; cases h
  · rw [he] at h; cases h
  · rw [he] at h; cases h
  · have hall : r.All GoodChains := by
      rcases processV3_ok hv with ⟨_, hx⟩ | ⟨_, spk, kp, ot, s0, s1, s2, _, _, _, _, h0, h1, h2, hx, _⟩
      · injection hx with hx _
        rw [hx]; exact hg
      · simp only at hx
        rw [hx]
        rw [archive_load_state] at h0
        exact ⟨(goodChains_inv hC).created _ (.bob h0 h1 h2), (hg.archive (goodChains_inv hC)).2⟩
    refine ⟨r2, ?_, usedUp_accepted hC hall hd⟩
    rw [he]
    cases u <;> simp [Outcome.final, World.applyAll, World.apply, upd]

/-- The outcome of presenting a used-up message. -/
theorem replay_decryptMsg {w : World} {a : Address} {r : SessionRecord} (hr : w.sessions a = some r)
    {m : WhisperMessage} {pre post : List SessionState} {s : SessionState} (hst : states r = pre ++ s :: post)
    (hs : UsedUp m s)
    (hpre : ∀ p ∈ pre, ∀ seed, SessionCipher.decryptWithSessionState p m seed = .error .invalidMessage)
    (seed : Bytes) (seeds : Nat → Bytes) :
    SessionCipher.decryptMsg w a m seed seeds = ⟨[], .error .duplicateMessage⟩ := by
  have hload : w.loadSession a = { r with fresh := false } := by unfold World.loadSession; rw [hr]
  have hd := dwsr_usedUp (r := { r with fresh := false }) hst hs hpre seed seeds
  unfold SessionCipher.decryptMsg World.containsSession
  rw [hload, hr, hd]
  rfl

/-- **C19.** A message accepted in any reachable store is used up.  Whatever calls follow, as long as the session
that accepted it is kept with its receive chain (`KeptSession`), presenting the message again raises
`DuplicateMessage` and writes nothing - provided the states tried before that session's (none, if it is
still the current one) do not recognise the message. -/
theorem C19_replay (hC : C.Lawful) (w0 : World) (hw : w0.NoSessions) (cs : List Call) (a : Address)
    (m : WhisperMessage) (seed : Bytes) (seeds : Nat → Bytes) (pt : Bytes)
    (hacc : (SessionCipher.decryptMsg (Call.after w0 cs) a m seed seeds).result = .ok pt) :
    ∃ r1, ((SessionCipher.decryptMsg (Call.after w0 cs) a m seed seeds).final (Call.after w0 cs)).sessions a = some r1 ∧
      ∀ (w' : World) (s' : SessionS) (r' : SessionRecord) (pre post : List SessionS),
        KeptSession a m.senderRatchetKey
          ((SessionCipher.decryptMsg (Call.after w0 cs) a m seed seeds).final (Call.after w0 cs)) r1.sessionState w' s' →
        w'.sessions a = some r' → states r' = pre ++ s' :: post →
        (∀ p ∈ pre, ∀ seed, SessionCipher.decryptWithSessionState p m seed = .error .invalidMessage) →
        ∀ (seed' : Bytes) (seeds' : Nat → Bytes),
          SessionCipher.decryptMsg w' a m seed' seeds' = ⟨[], .error .duplicateMessage⟩ := by
  obtain ⟨r1, h1, h2⟩ := decryptMsg_accepted hC (reachable_good hC hw cs a) hacc
  refine ⟨r1, h1, ?_⟩
  intro w' s' r' pre post hk hr hst hpre seed' seeds'
  exact replay_decryptMsg hr hst (usedUp_kept hC hk h2) hpre seed' seeds'

/-- **C19** for prekey messages: the same, for a message accepted by `decryptPkmsg`; presenting it again, as the
same prekey message while its session is known, or stripped to the message inside. -/
theorem C19_replay_prekey (hC : C.Lawful) (w0 : World) (hw : w0.NoSessions) (cs : List Call) (a : Address)
    (p : PreKeyWhisperMessage) (seed : Bytes) (seeds : Nat → Bytes) (pt : Bytes)
    (hacc : (SessionCipher.decryptPkmsg (Call.after w0 cs) a p seed seeds).result = .ok pt) :
    ∃ r1, ((SessionCipher.decryptPkmsg (Call.after w0 cs) a p seed seeds).final (Call.after w0 cs)).sessions a = some r1 ∧
      ∀ (w' : World) (s' : SessionS) (r' : SessionRecord) (pre post : List SessionS),
        KeptSession a p.message.senderRatchetKey
          ((SessionCipher.decryptPkmsg (Call.after w0 cs) a p seed seeds).final (Call.after w0 cs)) r1.sessionState w' s' →
        w'.sessions a = some r' → states r' = pre ++ s' :: post →
        (∀ q ∈ pre, ∀ seed, SessionCipher.decryptWithSessionState q p.message seed = .error .invalidMessage) →
        ∀ (seed' : Bytes) (seeds' : Nat → Bytes),
          SessionCipher.decryptMsg w' a p.message seed' seeds' = ⟨[], .error .duplicateMessage⟩ ∧
          (w'.isTrusted a.1 p.identityKey = true → knowsBaseKey r' p.version p.baseKey →
            SessionCipher.decryptPkmsg w' a p seed' seeds' =
              ⟨[.identity a.1 p.identityKey], .error .duplicateMessage⟩) := by
  obtain ⟨r1, h1, h2⟩ := decryptPkmsg_accepted hC (reachable_good hC hw cs a) hacc
  refine ⟨r1, h1, ?_⟩
  intro w' s' r' pre post hk hr hst hpre seed' seeds'
  have hu := usedUp_kept hC hk h2
  refine ⟨replay_decryptMsg hr hst hu hpre seed' seeds', ?_⟩
  intro ht hb
  have hload : w'.loadSession a = { r' with fresh := false } := by unfold World.loadSession; rw [hr]
  have hd := dwsr_usedUp (r := { r' with fresh := false }) hst hu hpre seed' seeds'
  have hv : processV3 w' (w'.loadSession a) p = .ok ({ r' with fresh := false }, none) := by
    unfold processV3
    rw [if_pos, hload]
    rw [hasSessionState_iff, hload]
    exact hb
  unfold SessionCipher.decryptPkmsg SessionBuilder.process
  rw [ht, hv]
  simp only [Bool.not_true, Bool.false_eq_true, if_false]
  rw [hd]

/-! That sessions are indeed kept: every call carries every stored session forward, as long as there is room in
the archive. -/

theorem dwsr_carries {r r' : SessionRecord} {m : WhisperMessage} {seed : Bytes} {seeds : Nat → Bytes} {pt : Bytes}
    (hl : r.previousStates.length ≤ 40)
    (h : SessionCipher.decryptWithSessionRecord r m seed seeds = .ok (pt, r')) {s : SessionState} (hs : s ∈ states r) :
    ∃ s' ∈ states r', StateStep s s' := by
  rcases dwsr_ok h with ⟨s1, h1, rfl⟩ | ⟨_, k, p, s1, h1, h2, _, rfl⟩
  · rcases List.mem_cons.1 hs with rfl | hs
    · exact ⟨s1, List.mem_cons_self .., .decrypt h1⟩
    · exact ⟨s, List.mem_cons_of_mem _ hs, .same⟩
  · obtain ⟨hk, hk'⟩ := List.getElem?_eq_some_iff.1 h1
    have hprev : (SessionRecord.promoteState { r with previousStates := r.previousStates.eraseIdx k } s1).previousStates =
        r.sessionState :: r.previousStates.eraseIdx k := by
      unfold SessionRecord.promoteState SessionRecord.ARCHIVED_STATES_MAX_LENGTH
      simp only
      rw [if_neg]
      simp only [List.length_cons, List.length_eraseIdx]
      split <;> omega
    have hst : states (SessionRecord.promoteState { r with previousStates := r.previousStates.eraseIdx k } s1) =
        s1 :: r.sessionState :: r.previousStates.eraseIdx k := by
      unfold states
      rw [hprev]
      rfl
    rw [hst]
    rcases List.mem_cons.1 hs with rfl | hs
    · exact ⟨_, by simp, .same⟩
    · obtain ⟨i, hi, rfl⟩ := List.getElem_of_mem hs
      by_cases hik : i = k
      · subst hik
        rw [hk']
        exact ⟨s1, by simp, .decrypt h2⟩
      · refine ⟨r.previousStates[i], ?_, .same⟩
        apply List.mem_cons_of_mem
        apply List.mem_cons_of_mem
        rw [List.mem_eraseIdx_iff_getElem]
        exact ⟨i, hi, hik, rfl⟩

omit C in
theorem archive_carries {r : SessionRecord} (hf : r.fresh = false) (hl : r.previousStates.length < 40) :
    (archiveUnlessFresh r).previousStates = states r := by
  unfold archiveUnlessFresh
  rw [hf]
  simp only [Bool.not_false, if_true]
  unfold SessionRecord.archiveCurrentState SessionRecord.promoteState SessionRecord.ARCHIVED_STATES_MAX_LENGTH
  simp only [List.length_cons]
  rw [if_neg (by omega)]
  rfl

/-- **C19**, complement: with fewer than 40 archived states, any call leaves every session state of the record in
it, unchanged or advanced by an encryption, a decryption or a remembered key exchange. -/
theorem C19_sessions_kept (w : World) (call : Call) (a : Address) (r : SessionRecord) (hr : w.sessions a = some r)
    (hl : r.previousStates.length < 40) (s : SessionS) (hs : s ∈ states r) :
    ∃ r', (call.next w).sessions a = some r' ∧ ∃ s' ∈ states r', StateStep s s' := by
  have hload : w.loadSession a = { r with fresh := false } := by unfold World.loadSession; rw [hr]
  rcases next_session w call a with h | ⟨r', h, _, hstep⟩
  · exact ⟨r, by rw [h, hr], s, hs, .same⟩
  · refine ⟨r', h, ?_⟩
    rw [hload] at hstep
    have harch := archive_carries (r := { r with fresh := false }) rfl hl
    cases hstep with
    | encrypt he =>
      rcases List.mem_cons.1 hs with rfl | hs
      · exact ⟨_, List.mem_cons_self .., .encrypt he⟩
      · exact ⟨s, List.mem_cons_of_mem _ hs, .same⟩
    | decrypt hd => exact dwsr_carries (r := { r with fresh := false }) (Nat.le_of_lt hl) hd hs
    | create _ =>
      refine ⟨s, List.mem_cons_of_mem _ ?_, .same⟩
      show s ∈ (archiveUnlessFresh { r with fresh := false }).previousStates
      rw [harch]
      exact hs
    | createDecrypt _ hd =>
      refine dwsr_carries ?_ hd ?_
      · show (archiveUnlessFresh { r with fresh := false }).previousStates.length ≤ 40
        rw [harch]
        simp only [states, List.length_cons]
        omega
      · refine List.mem_cons_of_mem _ ?_
        show s ∈ (archiveUnlessFresh { r with fresh := false }).previousStates
        rw [harch]
        exact hs
    | pending hp =>
      rcases List.mem_cons.1 hs with rfl | hs
      · exact ⟨_, List.mem_cons_self .., .pending hp⟩
      · exact ⟨s, List.mem_cons_of_mem _ hs, .same⟩

/-! ## C21: the window -/

theorem authentic_verify (hlen : ∀ k m, (C.hmac k m).length = 32) {s : SessionState} {m : WhisperMessage} {k : Bytes}
    (h : Authentic s m k) {v : Nat} (hv : 3 ≤ v) :
    ∃ rid lid, getRemoteIdentityKey s = .ok rid ∧ getLocalIdentityKey s = .ok lid ∧ m.verifyMac v rid lid k = .ok () := by
  obtain ⟨rid, lid, body, h1, h2, h3, h4, h5⟩ := h
  refine ⟨rid, lid, ?_, ?_, ?_⟩
  · unfold getRemoteIdentityKey
    rw [h1]
    exact decodePoint_serializePoint (k := rid) (by omega)
  · unfold getLocalIdentityKey
    rw [h3]
    exact decodePoint_serializePoint (k := lid) (by omega)
  · unfold WhisperMessage.verifyMac
    have hl : ((C.hmac k ((5 :: rid) ++ (5 :: lid) ++ body)).take 8).length = 8 := by rw [List.length_take, hlen]; rfl
    have hs := split2_tail body _ 8 hl
    rw [← h5] at hs
    simp only
    rw [show ByteUtil.split2 m.serialized ((m.serialized.length : Int) - WhisperMessage.MAC_LENGTH)
      WhisperMessage.MAC_LENGTH = _ from hs]
    simp only
    rw [if_neg]
    intro hne
    apply hne
    unfold WhisperMessage.getMac
    rw [if_pos hv]
    exact trim_eq_take (by rw [hlen]; simp [WhisperMessage.MAC_LENGTH])

theorem skipped_entries (hlen : ∀ k m, (C.hmac k m).length = 32) (ck : ChainKey) (hv : ck.kdf = .v3) (n : Nat) :
    skipped ck n = (List.range n).map fun d => skippedEntry ck.key d (ck.index + d) := by
  unfold skipped
  apply List.map_congr_left
  intro d _
  unfold entryOf skippedEntry
  rw [getMessageKeys_v3 hlen _ (by rw [ChainKey.iter_kdf, hv])]
  simp only [ChainKey.iter_index, iter_key]

theorem dwss_authentic (hlen : ∀ k m, (C.hmac k m).length = 32) {s s1 s2 : SessionState} {m : WhisperMessage}
    {seed pt : Bytes} {ck : ChainKey} {mk : MessageKeys} (hsc : s.senderChain ≠ none) (hsv : s.sessionVersion = some 3)
    (hv : m.messageVersion = 3)
    (h1 : SessionCipher.getOrCreateChainKey s m.senderRatchetKey seed = .ok (ck, s1))
    (h2 : SessionCipher.getOrCreateMessageKeys s1 m.senderRatchetKey ck m.counter = .ok (mk, s2))
    (hmac : Authentic s m mk.macKey) (hb : AES.decrypt mk.cipherKey mk.iv m.ciphertext = .ok pt)
    (hr : s2.remoteIdentityPublic = s.remoteIdentityPublic) (hl : s2.localIdentityPublic = s.localIdentityPublic) :
    SessionCipher.decryptWithSessionState s m seed = .ok (pt, clearUnacknowledgedPreKeyMessage s2) := by
  obtain ⟨rid, lid, e1, e2, e3⟩ := authentic_verify hlen (v := 3) hmac (Nat.le_refl 3)
  unfold SessionCipher.decryptWithSessionState
  have hh : hasSenderChain s = true := by
    unfold hasSenderChain
    cases h : s.senderChain with
    | none => exact absurd h hsc
    | some _ => rfl
  have hg : getSessionVersion s = 3 := by unfold getSessionVersion; rw [hsv]; rfl
  have e1' : getRemoteIdentityKey s2 = .ok rid := by rw [← e1]; unfold getRemoteIdentityKey; rw [hr]
  have e2' : getLocalIdentityKey s2 = .ok lid := by rw [← e2]; unfold getLocalIdentityKey; rw [hl]
  rw [if_neg (by rw [hh]; simp), if_neg (by rw [hg, hv]; simp), h1, ok_bind]
  simp only
  rw [h2, ok_bind]
  simp only
  rw [e1', ok_bind, e2', ok_bind, hv, e3, ok_bind, hb, ok_bind]

theorem gocck_found {s : SessionState} {key : ECPub} {c : ChainS} {j : Nat} {kdf : Kdf}
    (hj : getReceiverChain s key = .ok (some (c, j))) (hk : Kdf.createFor (getSessionVersion s) = .ok kdf) (seed : Bytes) :
    SessionCipher.getOrCreateChainKey s key seed = .ok (chainKeyOf kdf c, s) := by
  unfold SessionCipher.getOrCreateChainKey hasReceiverChain
  rw [hj]
  simp only [ok_bind, Option.isSome_some, if_true]
  rw [getReceiverChainKey_eq hj hk]
  rfl

theorem decryptMsg_current {w : World} {a : Address} {r : SessionRecord} (hr : w.sessions a = some r)
    {m : WhisperMessage} {seed : Bytes} {seeds : Nat → Bytes} {pt : Bytes} {s' : SessionState}
    (h : SessionCipher.decryptWithSessionState r.sessionState m seed = .ok (pt, s')) :
    SessionCipher.decryptMsg w a m seed seeds = ⟨[.session a { r with fresh := false, sessionState := s' }], .ok pt⟩ := by
  have hload : w.loadSession a = { r with fresh := false } := by unfold World.loadSession; rw [hr]
  unfold SessionCipher.decryptMsg World.containsSession SessionCipher.decryptWithSessionRecord
  rw [hload, hr]
  simp only [Option.isSome_some, Bool.not_true, Bool.false_eq_true, if_false]
  rw [h]
  rfl

/-- What `C21` assumes of the message and the session besides the counter: a version-3 session with a receive
chain for the message's ratchet key. -/
structure Spec.OnChain (w : World) (a : Address) (r : SessionRecord) (m : WhisperMessage) (c : ChainS) : Prop where
  stored : w.sessions a = some r
  version : m.messageVersion = 3
  sessionVersion : r.sessionState.sessionVersion = some 3
  sender : r.sessionState.senderChain ≠ none
  chain : recvChain r.sessionState m.senderRatchetKey = some c

/-- **C21**, inside the window.  An authentic message at most 2000 ahead of its receive chain is accepted.  The
chain moves to just behind it, and exactly the skipped counters (with their right keys) are added to the
stored keys. -/
theorem C21_within (hC : C.Lawful) (w0 : World) (hw : w0.NoSessions) (cs : List Call) (a : Address) (r : SessionRecord)
    (m : WhisperMessage) (c : ChainS) (hon : OnChain (Call.after w0 cs) a r m c)
    (hge : position c ≤ m.counter) (hle : m.counter ≤ position c + 2000) (hmax : m.counter + 1 < 2 ^ 32)
    (pt : Bytes) (hmac : Authentic r.sessionState m (macKeyOf (chainAt (chainKeyBytes c) (m.counter - position c))))
    (hbody : AES.decrypt (cipherKeyOf (chainAt (chainKeyBytes c) (m.counter - position c)))
      (ivOf (chainAt (chainKeyBytes c) (m.counter - position c))) m.ciphertext = .ok pt)
    (seed : Bytes) (seeds : Nat → Bytes) :
    ∃ r' c', SessionCipher.decryptMsg (Call.after w0 cs) a m seed seeds = ⟨[.session a r'], .ok pt⟩ ∧
      recvChain r'.sessionState m.senderRatchetKey = some c' ∧
      position c' = m.counter + 1 ∧ chainKeyBytes c' = chainAt (chainKeyBytes c) (m.counter - position c + 1) ∧
      c'.messageKeys = c.messageKeys ++ (List.range (m.counter - position c)).map
        (fun d => skippedEntry (chainKeyBytes c) d (position c + d)) ∧
      (∀ key, key ≠ m.senderRatchetKey → recvChain r'.sessionState key = recvChain r.sessionState key) ∧
      SameSession r.sessionState r'.sessionState ∧ r'.sessionState.senderChain = r.sessionState.senderChain ∧
      r'.sessionState.rootKey = r.sessionState.rootKey ∧ r'.previousStates = r.previousStates := by
  have hgood := (reachable_all (goodChains_inv hC) w0 hw cs a r hon.stored).1
  obtain ⟨j, hj⟩ := found_of_recvChain hgood.good hon.chain
  have hk := createFor_three hon.sessionVersion
  have h1 := gocck_found hj hk seed
  have hidx : (chainKeyOf .v3 c).index = position c := position_chainKeyOf
  have hkey : (chainKeyOf .v3 c).key = chainKeyBytes c := key_chainKeyOf
  have h2 := SessionCipher.gocmk_ahead (ck := chainKeyOf .v3 c) hj (by omega) (by omega) hmax rfl
  rw [getMessageKeys_v3 hC.hmac_len _ (by rw [ChainKey.iter_kdf]; rfl), iter_key, iter_key, hidx, hkey] at h2
  have hd := dwss_authentic hC.hmac_len hon.sender hon.sessionVersion hon.version h1 h2 hmac hbody rfl rfl
  have hjj := findChain_some hj
  rw [Nat.sub_zero] at hjj
  have hg := goodChain_ahead (hgood.good c (List.mem_of_getElem? hjj.2.1)) hidx (n := m.counter)
    (by omega) hmax (k := chainAt (chainKeyBytes c) (m.counter - position c + 1))
  rw [hidx] at hg
  have hset := recvChain_set hgood hj (by rfl) hg
  refine ⟨_, { c with messageKeys := c.messageKeys ++ skipped (chainKeyOf .v3 c) (m.counter - position c),
                      chainKey := some { key := some (chainAt (chainKeyBytes c) (m.counter - position c + 1)),
                                         index := some (m.counter + 1) } },
    decryptMsg_current hon.stored hd, hset.1, rfl, rfl, ?_, hset.2, ⟨rfl, rfl, rfl, rfl, rfl, rfl⟩, rfl, rfl, rfl⟩
  show c.messageKeys ++ _ = _
  rw [skipped_entries hC.hmac_len _ rfl, hkey, hidx]

/-- **C21**, the skipped messages.  An authentic message whose key is stored is accepted; its key, and nothing
else, is taken out. -/
theorem C21_skipped (hC : C.Lawful) (w0 : World) (hw : w0.NoSessions) (cs : List Call) (a : Address) (r : SessionRecord)
    (m : WhisperMessage) (c : ChainS) (hon : OnChain (Call.after w0 cs) a r m c)
    (e : MessageKeyS) (he : e ∈ c.messageKeys) (hi : e.index = some m.counter) (pt : Bytes)
    (hmac : Authentic r.sessionState m (e.macKey.getD []))
    (hbody : AES.decrypt (e.cipherKey.getD []) (e.iv.getD []) m.ciphertext = .ok pt)
    (seed : Bytes) (seeds : Nat → Bytes) :
    ∃ r' c', SessionCipher.decryptMsg (Call.after w0 cs) a m seed seeds = ⟨[.session a r'], .ok pt⟩ ∧
      recvChain r'.sessionState m.senderRatchetKey = some c' ∧ position c' = position c ∧
      chainKeyBytes c' = chainKeyBytes c ∧ c'.messageKeys = c.messageKeys.filter fun x => x.index != some m.counter := by
  have hgood := (reachable_all (goodChains_inv hC) w0 hw cs a r hon.stored).1
  obtain ⟨j, hj⟩ := found_of_recvChain hgood.good hon.chain
  have hk := createFor_three hon.sessionVersion
  have h1 := gocck_found hj hk seed
  have hjj := findChain_some hj
  rw [Nat.sub_zero] at hjj
  have hc := hgood.good c (List.mem_of_getElem? hjj.2.1)
  have hidx : (chainKeyOf .v3 c).index = position c := position_chainKeyOf
  have hmem : m.counter ∈ storedCounters c := List.mem_map.2 ⟨e, he, by rw [hi]; rfl⟩
  cases ht : takeKey m.counter c.messageKeys with
  | none => exact absurd hmem (takeKey_none_iff.1 ht)
  | some q =>
    obtain ⟨e', rest⟩ := q
    obtain ⟨x, y, t1, t2, t3, t4⟩ := takeKey_split ht
    have hdist := hc.distinct
    unfold storedCounters at hdist
    rw [t1, List.map_append, List.map_cons, List.nodup_append, List.nodup_cons] at hdist
    have hy : ∀ z ∈ y, z.index.getD 0 ≠ m.counter := by
      intro z hz hzz
      apply hdist.2.1.1
      rw [t3, ← hzz]
      exact List.mem_map.2 ⟨z, hz, rfl⟩
    have hee : e' = e := by
      rw [t1] at he
      rcases List.mem_append.1 he with h | h
      · exact absurd (by rw [hi]; rfl) (t4 e h)
      · rcases List.mem_cons.1 h with h | h
        · exact h.symm
        · exact absurd (by rw [hi]; rfl) (hy e h)
    subst hee
    have h2 := SessionCipher.gocmk_stored (ck := chainKeyOf .v3 c) hj (by have := hc.below _ hmem; omega) ht
    have hd := dwss_authentic (mk := messageKeysOf e') hC.hmac_len hon.sender hon.sessionVersion hon.version h1 h2
      hmac hbody rfl rfl
    refine ⟨_, { c with messageKeys := rest }, decryptMsg_current hon.stored hd, ?_, rfl, rfl, ?_⟩
    · exact (recvChain_set (c' := { c with messageKeys := rest }) hgood hj rfl (goodChain_take hc ht)).1
    · show rest = _
      have hne : ∀ (l : List MessageKeyS), (∀ z ∈ l, z.index.getD 0 ≠ m.counter) →
          l.filter (fun x => x.index != some m.counter) = l := by
        intro l hl
        rw [List.filter_eq_self]
        intro z hz
        have := hl z hz
        rw [bne_iff_ne]
        intro h
        rw [h] at this
        exact this rfl
      rw [t2, t1, List.filter_append, List.filter_cons, hi]
      simp only [bne_self_eq_false, Bool.false_eq_true, if_false]
      rw [hne x t4, hne y hy]

/-- **C21**, outside the window.  A message more than 2000 ahead of its receive chain is refused with
`InvalidMessage` and nothing changes, if this is so for every session state of the record that would look at
it (that has a sending chain and its version). -/
theorem C21_too_far (hC : C.Lawful) (w0 : World) (hw : w0.NoSessions) (cs : List Call) (a : Address) (r : SessionRecord)
    (m : WhisperMessage) (hr : (Call.after w0 cs).sessions a = some r)
    (h : ∀ s ∈ states r, s.senderChain = none ∨ stateVersion s ≠ m.messageVersion ∨
      ∃ c, recvChain s m.senderRatchetKey = some c ∧ position c + 2000 < m.counter)
    (seed : Bytes) (seeds : Nat → Bytes) :
    SessionCipher.decryptMsg (Call.after w0 cs) a m seed seeds = ⟨[], .error .invalidMessage⟩ := by
  have hall := reachable_all (goodChains_inv hC) w0 hw cs a r hr
  have hver := reachable_all version_inv w0 hw cs a r hr
  have hd : SessionCipher.decryptWithSessionRecord ((Call.after w0 cs).loadSession a) m seed seeds =
      .error .invalidMessage := by
    have hload : (Call.after w0 cs).loadSession a = { r with fresh := false } := by
      unfold World.loadSession; rw [hr]
    rw [hload]
    apply dwsr_refused
    intro s hs seed
    have hgs : GoodChains s := by
      rcases List.mem_cons.1 hs with rfl | hs
      · exact hall.1
      · exact hall.2 s hs
    by_cases hbad : s.senderChain = none ∨ stateVersion s ≠ m.messageVersion
    · exact dwss_refused hbad
    · have hn : s.senderChain ≠ none ∧ stateVersion s = m.messageVersion := by
        refine ⟨fun h => hbad (Or.inl h), Classical.byContradiction fun h => hbad (Or.inr h)⟩
      obtain ⟨c, hc, hfar⟩ : ∃ c, recvChain s m.senderRatchetKey = some c ∧ position c + 2000 < m.counter := by
        rcases h s hs with h | h | h
        · exact absurd h hn.1
        · exact absurd hn.2 h
        · exact h
      obtain ⟨j, hj⟩ := found_of_recvChain hgs.good hc
      have hv3 : s.sessionVersion = some 3 := by
        have : s.senderChain.isSome = true → s.sessionVersion = some 3 := by
          rcases List.mem_cons.1 hs with rfl | hs
          · exact hver.1
          · exact hver.2 s hs
        exact this (Option.isSome_iff_ne_none.2 hn.1)
      have h1 := gocck_found hj (createFor_three hv3) seed
      unfold SessionCipher.decryptWithSessionState
      have hh : hasSenderChain s = true := by
        unfold hasSenderChain
        cases h : s.senderChain with
        | none => exact absurd h hn.1
        | some _ => rfl
      rw [if_neg (by rw [hh]; simp), if_neg (by rw [stateVersion_eq, hn.2]; simp), h1, ok_bind]
      simp only
      rw [SessionCipher.gocmk_far (by rw [position_chainKeyOf]; exact hfar)]
      rfl
  unfold SessionCipher.decryptMsg World.containsSession
  rw [hr]
  simp only [Option.isSome_some, Bool.not_true, Bool.false_eq_true, if_false]
  rw [hd]
  rfl

/-- **C21**, for every accepted message: some session state of the record had its counter either stored or at
most 2000 ahead of its chain, a chain opened by the message counting from 0. -/
theorem C21_accepted (hC : C.Lawful) (w0 : World) (hw : w0.NoSessions) (cs : List Call) (a : Address)
    (m : WhisperMessage) (seed : Bytes) (seeds : Nat → Bytes) (pt : Bytes)
    (hacc : (SessionCipher.decryptMsg (Call.after w0 cs) a m seed seeds).result = .ok pt) :
    ∃ r, (Call.after w0 cs).sessions a = some r ∧ ∃ s ∈ states r,
      (recvChain s m.senderRatchetKey = none ∧ m.counter ≤ 2000) ∨
      ∃ c, recvChain s m.senderRatchetKey = some c ∧
        (m.counter ∈ storedCounters c ∨ (position c ≤ m.counter ∧ m.counter ≤ position c + 2000)) := by
  unfold SessionCipher.decryptMsg World.containsSession at hacc
  cases hr : (Call.after w0 cs).sessions a with
  | none => rw [hr] at hacc; cases hacc
  | some r =>
    refine ⟨r, rfl, ?_⟩
    have hload : (Call.after w0 cs).loadSession a = { r with fresh := false } := by
      unfold World.loadSession; rw [hr]
    rw [hr, hload] at hacc
    simp only [Option.isSome_some, Bool.not_true, Bool.false_eq_true, if_false] at hacc
    cases hd : SessionCipher.decryptWithSessionRecord { r with fresh := false } m seed seeds with
    | error e => rw [hd] at hacc; cases hacc
    | ok x =>
      obtain ⟨s, hs, seed', s', hd'⟩ := dwsr_state hd
      have hall := reachable_all (goodChains_inv hC) w0 hw cs a r hr
      have hgs : GoodChains s := by
        rcases List.mem_cons.1 hs with rfl | hs
        · exact hall.1
        · exact hall.2 s hs
      refine ⟨s, hs, ?_⟩
      obtain ⟨c, c', h1, h2, h3, _⟩ := dwss_view hC hgs hd'
      rcases h2 with h2 | ⟨h2, hp, hk⟩
      · right
        refine ⟨c, h2, ?_⟩
        rcases h3 with ⟨_, _, x, y, e, e1, _, e3⟩ | ⟨hle, hle', _⟩
        · left
          unfold storedCounters
          rw [e1, ← e3]
          simp
        · exact Or.inr ⟨hle, hle'⟩
      · left
        refine ⟨h2, ?_⟩
        rcases h3 with ⟨hlt, _⟩ | ⟨_, hle, _⟩ <;> omega

/-! ## C23: how many keys are stored -/

omit C in
theorem nodup_bound : ∀ (n : Nat) (l : List Nat), l.Nodup → (∀ x ∈ l, x < n) → l.length ≤ n := by
  intro n
  induction n with
  | zero =>
    intro l _ h
    cases l with
    | nil => simp
    | cons a l => exact absurd (h a (List.mem_cons_self ..)) (by omega)
  | succ n ih =>
    intro l hd h
    have h1 := ih (l.erase n) (hd.erase n) (by
      intro x hx
      rw [hd.mem_erase_iff] at hx
      have := h x hx.2
      omega)
    rw [List.length_erase] at h1
    split at h1 <;> omega

/-- **C23**, the bound: in every reachable store, the keys kept for skipped messages of one receive chain belong
to different counters below the position of the chain; there are fewer than 2^32 of them. -/
theorem C23_bound (hC : C.Lawful) (w0 : World) (hw : w0.NoSessions) (cs : List Call) (a : Address) (r : SessionRecord)
    (hr : (Call.after w0 cs).sessions a = some r) (s : SessionS) (hs : s ∈ states r) (c : ChainS)
    (hc : c ∈ s.receiverChains) :
    (storedCounters c).Nodup ∧ (∀ n ∈ storedCounters c, n < position c) ∧
    c.messageKeys.length ≤ position c ∧ c.messageKeys.length < 2 ^ 32 := by
  have hall := reachable_all (goodChains_inv hC) w0 hw cs a r hr
  have hgs : GoodChains s := by
    rcases List.mem_cons.1 hs with rfl | hs
    · exact hall.1
    · exact hall.2 s hs
  have hg := hgs.good c hc
  have hb := nodup_bound (position c) _ hg.distinct hg.below
  unfold storedCounters at hb
  rw [List.length_map] at hb
  obtain ⟨k, i, h1, h2⟩ := hg.chain
  have hp : position c = i := by unfold position; rw [h1]; rfl
  exact ⟨hg.distinct, hg.below, hb, by omega⟩

/-- **C23**, one message: an accepted message adds at most 2000 stored keys to the chain of its ratchet key, and
none to any other chain. -/
theorem C23_one_message (hC : C.Lawful) (s : SessionS) (hs : GoodChains s) (m : WhisperMessage) (seed pt : Bytes)
    (s' : SessionS) (h : SessionCipher.decryptWithSessionState s m seed = .ok (pt, s')) (key : ECPub) (c' : ChainS)
    (hc' : recvChain s' key = some c') :
    c'.messageKeys.length ≤ ((recvChain s key).elim 0 fun c => c.messageKeys.length) +
      (if key = m.senderRatchetKey then 2000 else 0) := by
  obtain ⟨c, c1, h1, h2, h3, h4⟩ := dwss_view hC hs h
  by_cases hk : key = m.senderRatchetKey
  · subst hk
    rw [h1] at hc'
    obtain rfl := Option.some.inj hc'
    rw [if_pos rfl]
    have hle : c1.messageKeys.length ≤ c.messageKeys.length + 2000 := by
      rcases h3 with ⟨_, _, x, y, e, e1, e2, _⟩ | ⟨_, hle, _, ck, _, _, e1⟩
      · rw [e1, e2]; simp only [List.length_append, List.length_cons]; omega
      · rw [e1, List.length_append, skipped_length]; omega
    rcases h2 with h2 | ⟨h2, _, hk⟩
    · rw [h2]; exact hle
    · rw [h2]
      rw [hk] at hle
      exact hle
  · rw [if_neg hk]
    rcases h4 key hk with h4 | h4
    · rw [← h4, hc']; exact Nat.le_refl _
    · rw [h4] at hc'; cases hc'

/-- All keys of skipped messages in a session state, and in a record. -/
def Spec.storedKeys (s : SessionS) : Nat := (s.receiverChains.map fun c => c.messageKeys.length).sum
def Spec.storedKeysOf (r : SessionRecord) : Nat := ((states r).map storedKeys).sum

omit C in
theorem sum_set_le {l : List Nat} : ∀ {j x y d : Nat}, l[j]? = some x → y ≤ x + d → (l.set j y).sum ≤ l.sum + d := by
  induction l with
  | nil => intro j x y d h; simp at h
  | cons a l ih =>
    intro j x y d h hy
    cases j with
    | zero =>
      simp only [List.getElem?_cons_zero, Option.some.injEq] at h
      simp only [List.set_cons_zero, List.sum_cons]
      omega
    | succ j =>
      simp only [List.getElem?_cons_succ] at h
      have := ih h hy
      simp only [List.set_cons_succ, List.sum_cons]
      omega

omit C in
theorem sum_eraseIdx {l : List Nat} : ∀ {j x : Nat}, l[j]? = some x → (l.eraseIdx j).sum + x = l.sum := by
  induction l with
  | nil => intro j x h; simp at h
  | cons a l ih =>
    intro j x h
    cases j with
    | zero =>
      simp only [List.getElem?_cons_zero, Option.some.injEq] at h
      simp only [List.eraseIdx_cons_zero, List.sum_cons]
      omega
    | succ j =>
      simp only [List.getElem?_cons_succ] at h
      have := ih h
      simp only [List.eraseIdx_cons_succ, List.sum_cons]
      omega

theorem storedKeys_dwss {s : SessionState} {m : WhisperMessage} {seed pt : Bytes} {s' : SessionState}
    (h : SessionCipher.decryptWithSessionState s m seed = .ok (pt, s')) : storedKeys s' ≤ storedKeys s + 2000 := by
  obtain ⟨_, _, ck, s1, mk, s2, _, _, h1, h2, _, _, _, _, h5⟩ := SessionCipher.dwss_ok h
  have hs1 : storedKeys s1 ≤ storedKeys s := by
    rcases SessionCipher.gocck_ok h1 with ⟨_, _, _, _, _, _, rfl⟩ | ⟨_, _, _, _, _, _, _, _, _, _, rfl⟩
    · exact Nat.le_refl _
    · unfold storedKeys ratcheted pushChain
      simp only
      split
      · cases s.receiverChains with
        | nil => simp
        | cons a cs => simp [mkChain]
      · simp [mkChain]
  obtain ⟨c, j, hf, h2⟩ := SessionCipher.gocmk_ok h2
  have hj := (findChain_some hf).2.1
  rw [Nat.sub_zero] at hj
  have hset : ∀ c', c'.messageKeys.length ≤ c.messageKeys.length + 2000 →
      storedKeys (setChainAt s1 j c') ≤ storedKeys s1 + 2000 := by
    intro c' hle
    unfold storedKeys
    simp only [setChainAt]
    rw [List.map_set]
    exact sum_set_le (x := c.messageKeys.length) (by rw [List.getElem?_map, hj]; rfl) hle
  have hs2 : storedKeys s2 ≤ storedKeys s1 + 2000 := by
    rcases h2 with ⟨_, e, rest, ht, _, rfl⟩ | ⟨_, hw, _, _, c', rfl, rfl⟩
    · apply hset
      obtain ⟨x, y, t1, t2, _⟩ := takeKey_split ht
      simp only
      rw [t1, t2]
      simp only [List.length_append, List.length_cons]
      omega
    · apply hset
      simp only [List.length_append, skipped_length]
      omega
  rw [h5]
  exact Nat.le_trans hs2 (by omega)

omit C in
theorem storedKeysOf_promote (r : SessionRecord) (s : SessionState) :
    storedKeysOf (r.promoteState s) ≤ storedKeys s + storedKeysOf r := by
  unfold storedKeysOf states SessionRecord.promoteState
  simp only [List.map_cons, List.sum_cons]
  have hsub : ((if (r.sessionState :: r.previousStates).length > SessionRecord.ARCHIVED_STATES_MAX_LENGTH then
      (r.sessionState :: r.previousStates).dropLast else r.sessionState :: r.previousStates).map storedKeys).sum ≤
      ((r.sessionState :: r.previousStates).map storedKeys).sum := by
    split
    · have hne : r.sessionState :: r.previousStates ≠ [] := by simp
      have := List.dropLast_concat_getLast hne
      conv => rhs; rw [← this]
      rw [List.map_append, List.sum_append]
      omega
    · exact Nat.le_refl _
  simp only [List.map_cons, List.sum_cons] at hsub
  omega

theorem storedKeysOf_dwsr {r r' : SessionRecord} {m : WhisperMessage} {seed : Bytes} {seeds : Nat → Bytes} {pt : Bytes}
    (h : SessionCipher.decryptWithSessionRecord r m seed seeds = .ok (pt, r')) :
    storedKeysOf r' ≤ storedKeysOf r + 2000 := by
  rcases dwsr_ok h with ⟨s, h1, rfl⟩ | ⟨_, k, p, s, h1, h2, _, rfl⟩
  · have := storedKeys_dwss h1
    unfold storedKeysOf states SessionRecord.setState
    simp only [List.map_cons, List.sum_cons]
    omega
  · have hs := storedKeys_dwss h2
    refine Nat.le_trans (storedKeysOf_promote _ s) ?_
    unfold storedKeysOf states
    simp only [List.map_cons, List.sum_cons]
    have := sum_eraseIdx (l := r.previousStates.map storedKeys) (j := k) (x := storedKeys p)
      (by rw [List.getElem?_map, h1]; rfl)
    have hm : (r.previousStates.map storedKeys).eraseIdx k = (r.previousStates.eraseIdx k).map storedKeys := by
      simp [List.eraseIdx_eq_take_drop_succ]
    rw [hm] at this
    omega

omit C in
theorem storedKeysOf_archive (r : SessionRecord) (s : SessionState) (hs : storedKeys s = 0) :
    storedKeysOf ((archiveUnlessFresh r).setState s) ≤ storedKeysOf r := by
  unfold archiveUnlessFresh
  split
  · have := storedKeysOf_promote r {}
    unfold SessionRecord.archiveCurrentState
    have h0 : storedKeys ({} : SessionState) = 0 := rfl
    rw [h0] at this
    refine Nat.le_trans ?_ (Nat.le_trans this (by omega))
    unfold storedKeysOf states SessionRecord.setState
    simp only [List.map_cons, List.sum_cons]
    omega
  · unfold storedKeysOf states SessionRecord.setState
    simp only [List.map_cons, List.sum_cons]
    omega

theorem created_storedKeys {s : SessionState} (h : Created s) : storedKeys s = 0 := by
  obtain ⟨_, _, _, _, _, _, h, _⟩ := created_shape h
  unfold storedKeys
  rcases h with h | ⟨_, _, h, _⟩ <;> rw [h] <;> simp [mkChain]

/-- **C23**, one call: no call adds more than 2000 stored keys to the sessions with a peer, all of them taken
together. -/
theorem C23_one_call (w : World) (call : Call) (a : Address) (r' : SessionRecord)
    (h : (call.next w).sessions a = some r') :
    storedKeysOf r' ≤ ((w.sessions a).elim 0 storedKeysOf) + 2000 := by
  have hl : storedKeysOf (w.loadSession a) = (w.sessions a).elim 0 storedKeysOf := by
    unfold World.loadSession
    cases w.sessions a <;> rfl
  rcases next_session w call a with h1 | ⟨r1, h1, _, hstep⟩
  · rw [h1] at h
    rw [h]
    exact Nat.le_add_right _ _
  · rw [h1] at h
    obtain rfl := Option.some.inj h
    rw [← hl]
    cases hstep with
    | @encrypt pt c s he =>
      have : storedKeys s = storedKeys (w.loadSession a).sessionState := by
        unfold storedKeys
        rw [(ews_same he).2.2.2.1]
      unfold storedKeysOf states SessionRecord.setState
      simp only [List.map_cons, List.sum_cons]
      omega
    | decrypt hd => exact storedKeysOf_dwsr hd
    | create hc => exact Nat.le_trans (storedKeysOf_archive _ _ (created_storedKeys hc)) (by omega)
    | createDecrypt hc hd =>
      have := storedKeysOf_archive (w.loadSession a) _ (created_storedKeys hc)
      exact Nat.le_trans (storedKeysOf_dwsr hd) (by omega)
    | @pending q k1 k2 k3 s hp =>
      have : storedKeys s = storedKeys (w.loadSession a).sessionState := by rw [(setPending_ok hp).2]; rfl
      unfold storedKeysOf states SessionRecord.setState
      simp only [List.map_cons, List.sum_cons]
      omega

/-- **C23**, why there is no useful bound: on any session with a receive chain whose counter is not near its
end, for every `N` a peer who only sends every 2001st message (all well-formed and authentic, each within the
window) makes this side store `2000 * N` keys. -/
theorem C23_grows (hC : C.Lawful) (w0 : World) (hw : w0.NoSessions) (a : Address) (key rid lid : ECPub)
    (hkl : key.length = 32) (hrl : rid.length = 32) (hll : lid.length = 32) (N : Nat) :
    ∀ (cs : List Call) (r : SessionRecord) (c : ChainS), (Call.after w0 cs).sessions a = some r →
      r.sessionState.sessionVersion = some 3 → r.sessionState.senderChain ≠ none →
      recvChain r.sessionState key = some c → r.sessionState.remoteIdentityPublic = some (5 :: rid) →
      r.sessionState.localIdentityPublic = some (5 :: lid) → position c + 2001 * N < 2 ^ 32 →
      ∃ (cs' : List Call) (r' : SessionRecord) (c' : ChainS),
        cs'.length = N ∧
        (∀ call ∈ cs', ∃ m seed seeds, call = .decryptMsg a m seed seeds ∧ WhisperMessage.parse m.serialized = .ok m) ∧
        (Call.after w0 (cs ++ cs')).sessions a = some r' ∧ recvChain r'.sessionState key = some c' ∧
        position c' = position c + 2001 * N ∧ c'.messageKeys.length = c.messageKeys.length + 2000 * N := by
  induction N with
  | zero =>
    intro cs r c hr _ _ hc _ _ _
    exact ⟨[], r, c, rfl, by simp, by simpa using hr, hc, rfl, rfl⟩
  | succ N ih =>
    intro cs r c hr hv hs hc hrid hlid hb
    have hlen := hC.hmac_len
    have hb1 : position c + 2000 + 1 < 2 ^ 32 :=
      Nat.lt_of_le_of_lt (n := position c + 2001) (m := position c + 2001 * (N + 1)) (Nat.add_le_add_left (by rw [Nat.mul_succ]; exact Nat.le_add_left _ _) _) hb
    have hb' := Nat.lt_of_succ_lt hb1
    obtain ⟨k, hk⟩ : ∃ k, chainAt (chainKeyBytes c) 2000 = k := ⟨_, rfl⟩
    obtain ⟨ct, h1, h2, h3, h4, h5⟩ := C01_cipher_roundtrip hC (cipherKeyOf k) (ivOf k) [0]
      (by right; right; exact cipherKeyOf_len hlen _) (ivOf_len hlen _)
    obtain ⟨m, e1, e2, e3, e4, e5, e6, e7⟩ := C02_whisper_roundtrip hlen 3 (Or.inr rfl) (macKeyOf k) key hkl
      (position c + 2000) 0 hb' (by decide) ct (by intro e; rw [e] at h4; simp at h4)
      (by simp only [List.length_cons, List.length_nil] at h5; omega) rid lid
    have hd : m.counter - position c = 2000 := by rw [e5, Nat.add_sub_cancel_left]
    have hauth : Authentic r.sessionState m (macKeyOf k) := by
      obtain ⟨body, mac, q1, _, q3⟩ := verifyMac_ok hlen (create_verifies hlen e1) (Nat.le_refl 3)
      exact ⟨rid, lid, body, hrid, hrl, hlid, hll, by rw [q1, q3]⟩
    obtain ⟨r1, c1, f1, f2, f3, f4, f5, _, f6, f7, _⟩ := C21_within hC w0 hw cs a r m c
      ⟨hr, e3, hv, hs, by rw [e4]; exact hc⟩ (by rw [e5]; exact Nat.le_add_right _ _)
      (by rw [e5]; exact Nat.le_refl _) (by rw [e5]; exact hb1) [0]
      (by rw [hd, hk]; exact hauth) (by rw [hd, hk, e7]; exact h2) [] (fun _ => [])
    have hnext : Call.after w0 (cs ++ [.decryptMsg a m [] fun _ => []]) =
        (Call.after w0 cs).apply (.session a r1) := by
      unfold Call.after
      rw [List.foldl_append]
      show Call.next (Call.after w0 cs) _ = _
      simp only [Call.next, Call.run, Call.mapOutcome, Outcome.final, f1]
      rfl
    have hpos : position c1 + 2001 * N = position c + 2001 * (N + 1) := by
      rw [f3, e5, Nat.mul_succ, Nat.add_assoc (position c) 2000, Nat.add_assoc, Nat.add_comm (2000 + 1)]
    obtain ⟨cs', r2, c2, g1, g2, g3, g4, g5, g6⟩ := ih (cs ++ [.decryptMsg a m [] fun _ => []]) r1 c1
      (by rw [hnext]; simp [World.apply, upd]) (by rw [f6.1]; exact hv) (by rw [f7]; exact hs)
      (by rw [e4] at f2; exact f2) (by rw [f6.2.2.1]; exact hrid) (by rw [f6.2.1]; exact hlid) (by rw [hpos]; exact hb)
    refine ⟨.decryptMsg a m [] (fun _ => []) :: cs', r2, c2, by rw [List.length_cons, g1], ?_, ?_, g4, by rw [g5, hpos], ?_⟩
    · intro call hcall
      rcases List.mem_cons.1 hcall with rfl | hcall
      · exact ⟨m, _, _, rfl, e2⟩
      · exact g2 call hcall
    · rw [List.append_assoc] at g3; exact g3
    · rw [g6, f5, hd]
      simp only [List.length_append, List.length_map, List.length_range]
      rw [Nat.mul_succ, Nat.add_assoc, Nat.add_comm 2000]

end

/-! ## Non-vacuity -/

section
attribute [local instance] toy
open Example Spec

/-- Bob's session with Alice after her first message: one receive chain, for her ratchet key, at position 1. -/
def Example.bobCalls : List Call := [.decryptPkmsg aliceAddr firstPk (key 51) (fun _ => key 52)]
def Example.bobRecord : SessionRecord := ((Call.after bob0 bobCalls).sessions aliceAddr).getD {}
def Example.bobChain : ChainS := (recvChain bobRecord.sessionState firstPk.message.senderRatchetKey).getD {}

theorem Example.bob_onChain : bob0.NoSessions ∧ (Call.after bob0 bobCalls).sessions aliceAddr = some bobRecord ∧
    bobRecord.sessionState.sessionVersion = some 3 ∧ bobRecord.sessionState.senderChain ≠ none ∧
    recvChain bobRecord.sessionState firstPk.message.senderRatchetKey = some bobChain ∧
    bobRecord.sessionState.remoteIdentityPublic = some (5 :: key 1) ∧
    bobRecord.sessionState.localIdentityPublic = some (5 :: key 2) ∧ position bobChain = 1 ∧
    firstPk.message.senderRatchetKey.length = 32 :=
  ⟨fun _ => rfl, by decide +kernel⟩

/-- **C23.** No bound up to four billion keys in one receive chain holds (over the toy primitives). -/
theorem C23_no_small_bound (B : Nat) (hB : B ≤ 4000000000) :
    ∃ (cs : List Call) (r : SessionRecord) (c : ChainS), (Call.after bob0 cs).sessions aliceAddr = some r ∧
      c ∈ r.sessionState.receiverChains ∧ B ≤ c.messageKeys.length := by
  obtain ⟨h0, h1, h2, h3, h4, h5, h6, h7, h8⟩ := bob_onChain
  obtain ⟨cs', r', c', _, _, g1, g2, _, g3⟩ := C23_grows toy_lawful bob0 h0 aliceAddr
    firstPk.message.senderRatchetKey (key 1) (key 2) h8 rfl rfl 2000000 bobCalls bobRecord bobChain h1 h2 h3 h4 h5 h6
    (by rw [h7]; decide)
  exact ⟨bobCalls ++ cs', r', c', g1, List.mem_of_find?_eq_some g2, by
    rw [g3]; exact Nat.le_trans hB (Nat.le_add_left _ _)⟩

/-- Alice's second and third messages. -/
def Example.aliceSecond : Outcome Ciphertext := SessionCipher.encrypt alice2 bobAddr [50]
def Example.secondMsg : WhisperMessage := match aliceSecond.result with | .ok c => c.inner | .error _ => noMessage
def Example.aliceThird : Outcome Ciphertext := SessionCipher.encrypt (aliceSecond.final alice2) bobAddr [51]
def Example.thirdMsg : WhisperMessage := match aliceThird.result with | .ok c => c.inner | .error _ => noMessage

/-- The hypotheses of `C21_within` are met by Alice's third message arriving before her second. -/
example : OnChain (Call.after bob0 bobCalls) aliceAddr bobRecord thirdMsg bobChain ∧ thirdMsg.counter = 2 ∧
    Authentic bobRecord.sessionState thirdMsg (macKeyOf (chainAt (chainKeyBytes bobChain) 1)) ∧
    AES.decrypt (cipherKeyOf (chainAt (chainKeyBytes bobChain) 1)) (ivOf (chainAt (chainKeyBytes bobChain) 1))
      thirdMsg.ciphertext = .ok [51] :=
  ⟨⟨by decide +kernel, by decide +kernel, by decide +kernel, by decide +kernel, by decide +kernel⟩, by decide +kernel,
    ⟨key 1, key 2, thirdMsg.serialized.take (thirdMsg.serialized.length - 8), by decide +kernel⟩, by decide +kernel⟩

def Example.bobCalls3 : List Call := bobCalls ++ [.decryptMsg aliceAddr thirdMsg (key 53) fun _ => key 54]
def Example.bobRecord3 : SessionRecord := ((Call.after bob0 bobCalls3).sessions aliceAddr).getD {}
def Example.bobChain3 : ChainS := (recvChain bobRecord3.sessionState firstPk.message.senderRatchetKey).getD {}

/-- ... and those of `C21_skipped` by the second message arriving then. -/
example : OnChain (Call.after bob0 bobCalls3) aliceAddr bobRecord3 secondMsg bobChain3 ∧
    ∃ e ∈ bobChain3.messageKeys, e.index = some secondMsg.counter ∧
      Authentic bobRecord3.sessionState secondMsg (e.macKey.getD []) ∧
      AES.decrypt (e.cipherKey.getD []) (e.iv.getD []) secondMsg.ciphertext = .ok [50] :=
  ⟨⟨by decide +kernel, by decide +kernel, by decide +kernel, by decide +kernel, by decide +kernel⟩,
    bobChain3.messageKeys.headD {}, by decide +kernel, by decide +kernel,
    ⟨key 1, key 2, secondMsg.serialized.take (secondMsg.serialized.length - 8), by decide +kernel⟩, by decide +kernel⟩

/-- The two messages are read in this order, and refused as duplicates afterwards. -/
example :
    let w1 := Call.after bob0 bobCalls3
    let o := SessionCipher.decryptMsg w1 aliceAddr secondMsg (key 55) fun _ => key 56
    o.result = .ok [50] ∧
    (SessionCipher.decryptMsg (o.final w1) aliceAddr secondMsg (key 57) fun _ => key 58).result = .error .duplicateMessage ∧
    (SessionCipher.decryptMsg (o.final w1) aliceAddr thirdMsg (key 57) fun _ => key 58).result = .error .duplicateMessage :=
  by decide +kernel

/-- `C19_replay` applied to it, with the session kept as it is. -/
example : SessionCipher.decryptMsg
    ((SessionCipher.decryptMsg (Call.after bob0 bobCalls) aliceAddr thirdMsg (key 53) fun _ => key 54).final
      (Call.after bob0 bobCalls)) aliceAddr thirdMsg (key 59) (fun _ => key 60) =
    ⟨[], .error .duplicateMessage⟩ := by
  obtain ⟨r1, h1, h2⟩ := C19_replay toy_lawful bob0 (fun _ => rfl) bobCalls aliceAddr thirdMsg (key 53)
    (fun _ => key 54) [51] (by decide +kernel)
  exact h2 _ r1.sessionState r1 [] r1.previousStates .refl h1 rfl (by simp) (key 59) _

/-- `C21_too_far` applied: a message 2001 ahead. -/
def Example.farMsg : WhisperMessage := { thirdMsg with counter := 2002 }
example : SessionCipher.decryptMsg (Call.after bob0 bobCalls) aliceAddr farMsg (key 59) (fun _ => key 60) =
    ⟨[], .error .invalidMessage⟩ := by
  have h1 : (Call.after bob0 bobCalls).sessions aliceAddr = some bobRecord := bob_onChain.2.1
  have h2 : recvChain bobRecord.sessionState farMsg.senderRatchetKey = some bobChain ∧
    position bobChain + 2000 < farMsg.counter := by decide +kernel
  have hp : bobRecord.previousStates = [] := by decide +kernel
  refine C21_too_far toy_lawful bob0 (fun _ => rfl) bobCalls aliceAddr bobRecord farMsg h1 (fun s hs => ?_) _ _
  unfold states at hs
  rw [hp] at hs
  rw [List.mem_singleton.1 hs]
  exact Or.inr (Or.inr ⟨bobChain, h2⟩)

end
end Axolotl
