import Verif.Spec.Verdict
import Verif.Props.SetupState

/-! # C58: the outcome of reading a message, in every case -/

namespace Axolotl
section
variable [C : Crypto]
open SessionState Spec

/-- A state with a session knows both identities. -/
theorem identities_inv : StateInv fun s => s.senderChain.isSome →
    (∃ k, KeyOf s.remoteIdentityPublic k) ∧ ∃ k, KeyOf s.localIdentityPublic k where
  empty := by intro h; cases h
  created := by
    intro s h _
    obtain ⟨_, _, ⟨a, ha⟩, ⟨b, hb⟩, _⟩ := created_shape h
    exact ⟨⟨_, a, ha, rfl⟩, ⟨_, b, hb, rfl⟩⟩
  encrypt := by
    intro s pt c s' _ h _
    obtain ⟨_, _, _, _, _, _, _, _, _, hl, hr, _⟩ := SessionCipher.ews_ok h
    have := (ews_same h).1
    rw [this.2.2.1, this.2.1]
    exact ⟨⟨_, KeyOf_iff.2 hr⟩, ⟨_, KeyOf_iff.2 hl⟩⟩
  decrypt := by
    intro s m seed pt s' hs h _
    have h1 := (dwss_same h).1
    rw [h1.2.2.1, h1.2.1]
    exact hs (SessionCipher.dwss_ok h).1
  pending := by
    intro s q a b c s' hs h
    obtain ⟨_, rfl⟩ := setPending_ok h
    exact hs

/-- The keys kept for skipped messages have the sizes the cipher needs. -/
def KeySizes (s : SessionState) : Prop := ∀ c ∈ s.receiverChains, ∀ e ∈ c.messageKeys,
  (e.cipherKey.getD []).length = 32 ∧ (e.iv.getD []).length = 16

theorem keySizes_yields (hC : C.Lawful) {c c' : ChainS} {n : Nat} {k1 k2 k3 : Bytes} (h : Yields c n k1 k2 k3 c')
    (hc : ∀ e ∈ c.messageKeys, (e.cipherKey.getD []).length = 32 ∧ (e.iv.getD []).length = 16) :
    (k1.length = 32 ∧ k3.length = 16) ∧
    ∀ e ∈ c'.messageKeys, (e.cipherKey.getD []).length = 32 ∧ (e.iv.getD []).length = 16 := by
  cases h with
  | @stored x y e h1 h2 h3 h4 =>
    refine ⟨hc e (by rw [h2]; simp), ?_⟩
    intro e' he'
    apply hc e'
    rw [h2]
    rcases List.mem_append.1 he' with h | h
    · exact List.mem_append_left _ h
    · exact List.mem_append_right _ (List.mem_cons_of_mem _ h)
  | ahead h1 h2 h3 h4 =>
    subst h4
    refine ⟨⟨cipherKeyOf_len hC.hmac_len _, ivOf_len hC.hmac_len _⟩, ?_⟩
    intro e' he'
    rcases List.mem_append.1 he' with h | h
    · exact hc e' h
    · obtain ⟨d, _, rfl⟩ := List.mem_map.1 h
      exact ⟨cipherKeyOf_len hC.hmac_len _, ivOf_len hC.hmac_len _⟩

theorem keySizes_opened {s s1 : SessionState} {eph : ECPub} {seed : Bytes} (h : Opened s eph seed s1) (hs : KeySizes s) :
    KeySizes s1 := by
  cases h with
  | known _ _ => exact hs
  | ratchet _ _ _ _ =>
    intro c hc
    rcases List.mem_append.1 (List.mem_of_mem_drop hc) with h | h
    · exact hs c h
    · rw [List.mem_singleton.1 h]
      intro e he
      cases he

theorem keySizes_inv (hC : C.Lawful) : StateInv fun s => (s.senderChain.isSome → s.sessionVersion = some 3) ∧
    s.receiverChains.length ≤ 5 ∧ KeySizes s where
  empty := ⟨version_inv.empty, chains_inv.empty, by intro c hc; cases hc⟩
  created := by
    intro s h
    refine ⟨version_inv.created s h, chains_inv.created s h, ?_⟩
    obtain ⟨_, _, _, _, _, _, h, _⟩ := created_shape h
    intro c hc
    rcases h with h | ⟨eph, ck, h, _⟩
    · rw [h] at hc; cases hc
    · rw [h] at hc
      rw [List.mem_singleton.1 hc]
      intro e he
      cases he
  encrypt := by
    intro s pt c s' hs h
    refine ⟨version_inv.encrypt _ _ _ _ hs.1 h, chains_inv.encrypt _ _ _ _ hs.2.1 h, ?_⟩
    unfold KeySizes
    rw [(ews_same h).2.2.2.1]
    exact hs.2.2
  decrypt := by
    intro s m seed pt s' hs h
    refine ⟨version_inv.decrypt _ _ _ _ _ hs.1 h, chains_inv.decrypt _ _ _ _ _ hs.2.1 h, ?_⟩
    have hA := accepts_of_dwss hC (hs.1 (SessionCipher.dwss_ok h).1) hs.2.1 h
    cases hA with
    | intro _ _ hop hsp _ _ hy _ _ _ _ _ =>
      have h1 := keySizes_opened hop hs.2.2
      intro c hc
      rcases List.mem_append.1 hc with hc | hc
      · exact h1 c (by rw [hsp]; exact List.mem_append_left _ hc)
      · rcases List.mem_cons.1 hc with rfl | hc
        · exact (keySizes_yields hC hy (h1 _ (by rw [hsp]; simp))).2
        · exact h1 c (by rw [hsp]; exact List.mem_append_right _ (List.mem_cons_of_mem _ hc))
  pending := by
    intro s q a b c s' hs h
    obtain ⟨_, rfl⟩ := setPending_ok h
    exact hs

/-- What every stored state satisfies. -/
structure Sane (s : SessionState) : Prop where
  chains : GoodChains s
  sender : ∀ c, s.senderChain = some c → ∃ k, KeyOf c.senderRatchetKey k
  version : s.senderChain.isSome → s.sessionVersion = some 3
  five : s.receiverChains.length ≤ 5
  identities : s.senderChain.isSome → (∃ k, KeyOf s.remoteIdentityPublic k) ∧ ∃ k, KeyOf s.localIdentityPublic k
  sizes : KeySizes s

theorem sane (hC : C.Lawful) (w0 : World) (hw : w0.NoSessions) (cs : List Call) (a : Address) (r : SessionRecord)
    (hr : (Call.after w0 cs).sessions a = some r) : r.All Sane := by
  have h1 := reachable_all (goodChains_inv hC) w0 hw cs a r hr
  have h2 := reachable_all senderKey_inv w0 hw cs a r hr
  have h3 := reachable_all identities_inv w0 hw cs a r hr
  have h4 := reachable_all (keySizes_inv hC) w0 hw cs a r hr
  exact ⟨⟨h1.1, h2.1, h4.1.1, h4.1.2.1, h3.1, h4.1.2.2⟩, fun s hs => ⟨h1.2 s hs, h2.2 s hs, (h4.2 s hs).1, (h4.2 s hs).2.1,
    h3.2 s hs, (h4.2 s hs).2.2⟩⟩

/-! ## Every case occurs in the specification -/

omit C in
theorem first_split {α : Type} {P : α → Prop} : ∀ {l : List α}, (∃ e ∈ l, P e) → ∃ x e y, l = x ++ e :: y ∧ P e ∧
    ∀ z ∈ x, ¬ P z
  | [], ⟨e, he, _⟩ => by cases he
  | a :: l, h => by
    by_cases ha : P a
    · exact ⟨[], a, l, rfl, ha, by intro z hz; cases hz⟩
    · obtain ⟨e, he, hp⟩ := h
      rcases List.mem_cons.1 he with rfl | he
      · exact absurd hp ha
      · obtain ⟨x, e, y, h1, h2, h3⟩ := first_split ⟨e, he, hp⟩
        refine ⟨a :: x, e, y, by rw [h1]; rfl, h2, ?_⟩
        intro z hz
        rcases List.mem_cons.1 hz with rfl | hz
        · exact ha
        · exact h3 z hz

theorem verdict_exists (hC : C.Lawful) {s : SessionState} (hs : Sane s) (m : WhisperMessage) (seed : Bytes) :
    ∃ v, Verdict s m seed v := by
  cases hsc : s.senderChain with
  | none => exact ⟨_, .empty hsc⟩
  | some sc =>
    have hsome : s.senderChain.isSome := by rw [hsc]; rfl
    by_cases hver : m.messageVersion = 3
    · have key : ∀ s1 x c y, Reads s m seed s1 x c y → ∃ v, Verdict s m seed v := by
        intro s1 x c y hR
        obtain ⟨⟨them, hthem⟩, ⟨me, hme⟩⟩ := hs.identities hsome
        have hsz : ∀ e ∈ c.messageKeys, (e.cipherKey.getD []).length = 32 ∧ (e.iv.getD []).length = 16 :=
          keySizes_opened hR.opened hs.sizes c (by rw [hR.chain.split]; simp)
        have fin : ∀ k1 k2 k3 c', Yields c m.counter k1 k2 k3 c' → ∃ v, Verdict s m seed v := by
          intro k1 k2 k3 c' hy
          by_cases hmac : ∃ body, m.serialized = body ++ (C.hmac k2 ((5 :: them) ++ (5 :: me) ++ body)).take 8
          · obtain ⟨body, hbody⟩ := hmac
            by_cases hct : ∃ pt, CbcDecryption k1 k3 m.ciphertext pt
            · obtain ⟨pt, hpt⟩ := hct
              have hz := (keySizes_yields hC hy hsz).1
              exact ⟨_, .plaintext (.intro hsome hver hR.opened hR.chain.split hR.chain.key hR.chain.first hy hthem hme hbody
                ⟨.inr (.inr hz.1), hz.2⟩ hpt)⟩
            · exact ⟨_, .badBody hR hy hthem hme hbody (fun pt h => hct ⟨pt, h⟩)⟩
          · exact ⟨_, .badMac hR hy hthem hme (fun body h => hmac ⟨body, h⟩)⟩
        by_cases hlt : m.counter < position c
        · by_cases hst : m.counter ∈ storedCounters c
          · obtain ⟨e, he, hn⟩ := List.mem_map.1 hst
            obtain ⟨u, e, v, g1, g2, g3⟩ := first_split (P := fun e : MessageKeyS => e.index.getD 0 = m.counter) ⟨e, he, hn⟩
            exact fin _ _ _ _ (.stored hlt g1 g2 g3)
          · exact ⟨_, .used hR hlt hst⟩
        · by_cases hfar : position c + 2000 < m.counter
          · exact ⟨_, .tooFar hR hfar⟩
          · by_cases hl : 2 ^ 32 ≤ m.counter + 1
            · exact ⟨_, .last hR (by omega) (by omega) hl⟩
            · exact fin _ _ _ _ (.ahead (by omega) (by omega) (by omega) rfl)
      by_cases hk : ∃ c ∈ s.receiverChains, KeyOf c.senderRatchetKey m.senderRatchetKey
      · obtain ⟨x, c, y, g1, g2, g3⟩ := first_split hk
        exact key s x c y ⟨hsome, hver, .known (c := c) (by rw [g1]; simp) g2, ⟨g1, g2, g3⟩⟩
      · have hno : ∀ z ∈ s.receiverChains, ¬ KeyOf z.senderRatchetKey m.senderRatchetKey := fun z hz h => hk ⟨z, hz, h⟩
        cases hd1 : C.dh (sc.senderRatchetKeyPrivate.getD []) m.senderRatchetKey with
        | none => exact ⟨_, .noAgreement hsc hver hno (.inl hd1)⟩
        | some d1 =>
          cases hd2 : C.dh (C.genPriv seed) m.senderRatchetKey with
          | none => exact ⟨_, .noAgreement hsc hver hno (.inr hd2)⟩
          | some d2 =>
            have hop := Opened.ratchet hno hsc hd1 hd2
            refine key _ ((s.receiverChains).drop (s.receiverChains.length + 1 - 5))
              { senderRatchetKey := some (5 :: m.senderRatchetKey), chainKey := startOf (ratchetChain (s.rootKey.getD []) d1) }
              [] ⟨hsome, hver, hop, ⟨?_, ?_, ?_⟩⟩
            · show newestFive _ = _
              unfold newestFive
              rw [List.length_append, List.length_singleton, List.drop_append_of_le_length (by omega)]
            · exact ⟨m.senderRatchetKey, rfl, (List.take_of_length_le (Nat.le_of_eq (hC.dh_size _ _ _ hd1).2)).symm⟩
            · intro z hz
              exact hno z (List.mem_of_mem_drop hz)
    · exact ⟨_, .version hsome hver⟩

/-! ## The code does what the specification says -/

omit C in
theorem setMessageKeys_found {s s1 : SessionState} {eph : ECPub} {mk : MessageKeys} {c : ChainS} {j : Nat}
    (hc : getReceiverChain s eph = .ok (some (c, j))) (h : setMessageKeys s eph mk = .ok s1) :
    ∃ c', getReceiverChain s1 eph = .ok (some (c', j)) := by
  unfold setMessageKeys at h
  obtain ⟨i, hi, h⟩ := bind_eq_ok.1 h
  unfold modifyChain at h
  rw [hc] at h
  obtain rfl := Except.ok.inj h
  exact ⟨_, findChain_set (c' := { c with messageKeys := c.messageKeys ++
      [{ cipherKey := some mk.cipherKey, macKey := some mk.macKey, index := some i, iv := some mk.iv }] }) hc rfl⟩

theorem skipLoop_found {eph : ECPub} : ∀ (n : Nat) {s : SessionState} {ck : ChainKey} {c : ChainS} {j : Nat}
    {x : SessionState × ChainKey}, getReceiverChain s eph = .ok (some (c, j)) →
    SessionCipher.skipLoop eph n s ck = .ok x → ∃ c', getReceiverChain x.1 eph = .ok (some (c', j)) := by
  intro n
  induction n with
  | zero => intro s ck c j x hc h; obtain rfl := Except.ok.inj h; exact ⟨c, hc⟩
  | succ n ih =>
    intro s ck c j x hc h
    unfold SessionCipher.skipLoop at h
    obtain ⟨s1, h1, h⟩ := bind_eq_ok.1 h
    obtain ⟨c', hc'⟩ := setMessageKeys_found hc h1
    exact ih hc' h

theorem skipLoop_error {eph : ECPub} : ∀ (n : Nat) {s : SessionState} {ck : ChainKey} {c : ChainS} {j : Nat} {e : Err},
    getReceiverChain s eph = .ok (some (c, j)) → SessionCipher.skipLoop eph n s ck = .error e → e = .valueError := by
  intro n
  induction n with
  | zero => intro s ck c j e _ h; cases h
  | succ n ih =>
    intro s ck c j e hc h
    unfold SessionCipher.skipLoop at h
    rcases bind_eq_error.1 h with h | ⟨s1, h1, h⟩
    · unfold setMessageKeys at h
      rcases bind_eq_error.1 h with h | ⟨i, hi, h⟩
      · exact chkU32_error h
      · unfold modifyChain at h
        rw [hc] at h
        cases h
    · obtain ⟨c', hc'⟩ := setMessageKeys_found hc h1
      exact ih hc' h

theorem gocmk_last {s : SessionState} {eph : ECPub} {ck : ChainKey} {n : Nat} {c : ChainS} {j : Nat}
    (hc : getReceiverChain s eph = .ok (some (c, j))) (h1 : ck.index ≤ n) (h2 : n ≤ ck.index + 2000)
    (h3 : 2 ^ 32 ≤ n + 1) : SessionCipher.getOrCreateMessageKeys s eph ck n = .error .valueError := by
  cases h : SessionCipher.getOrCreateMessageKeys s eph ck n with
  | ok p =>
    obtain ⟨c, j, _, h⟩ := SessionCipher.gocmk_ok h
    rcases h with ⟨h, _⟩ | ⟨_, _, h, _⟩ <;> omega
  | error e =>
    unfold SessionCipher.getOrCreateMessageKeys at h
    rw [if_neg (by omega), if_neg (by simp only [SessionCipher.MAX_FUTURE]; omega)] at h
    congr 1
    rcases bind_eq_error.1 h with h | ⟨r, hr, h⟩
    · exact skipLoop_error _ hc h
    · obtain ⟨c', hc'⟩ := skipLoop_found _ hc hr
      rcases bind_eq_error.1 h with h | ⟨r', _, h⟩
      · unfold setReceiverChainKey modifyChain at h
        rw [hc', ok_bind] at h
        rcases bind_eq_error.1 h with h | ⟨r', _, h⟩
        · rcases bind_eq_error.1 h with h | ⟨r', _, h⟩
          · rcases bind_eq_error.1 h with h | ⟨r', _, h⟩
            · exact chkU32_error h
            · cases h
          · cases h
        · cases h
      · cases h

/-- A state that can look at the message gets to the message keys. -/
theorem dwss_reads (hC : C.Lawful) {s s1 : SessionState} (hs : Sane s) {m : WhisperMessage} {seed : Bytes}
    {x y : List ChainS} {c : ChainS} (h : Reads s m seed s1 x c y) :
    getReceiverChain s1 m.senderRatchetKey = .ok (some (c, x.length)) ∧
    SessionCipher.decryptWithSessionState s m seed = (do
      let r ← SessionCipher.getOrCreateMessageKeys s1 m.senderRatchetKey (chainKeyOf .v3 c) m.counter
      let remoteId ← r.2.getRemoteIdentityKey
      let localId ← r.2.getLocalIdentityKey
      m.verifyMac 3 remoteId localId r.1.macKey
      let plaintext ← AES.decrypt r.1.cipherKey r.1.iv m.ciphertext
      .ok (plaintext, r.2.clearUnacknowledgedPreKeyMessage)) := by
  obtain ⟨h1, h2⟩ := gocck_of_opened hC hs.chains hs.sender (hs.version h.session) hs.five h.opened h.chain.split h.chain.key
    h.chain.first
  refine ⟨h1, ?_⟩
  have hh : hasSenderChain s = true := h.session
  have hgv : getSessionVersion s = 3 := by unfold getSessionVersion; rw [hs.version h.session]; rfl
  unfold SessionCipher.decryptWithSessionState
  rw [if_neg (by rw [hh]; simp), if_neg (by rw [hgv, h.version]; simp), h2, h.version]
  rfl

/-- The message keys the specification names, and the state after taking them. -/
theorem gocmk_yields (hC : C.Lawful) {s1 : SessionState} {eph : ECPub} {n : Nat} {x y : List ChainS} {c c' : ChainS}
    {k1 k2 k3 : Bytes} (hf : getReceiverChain s1 eph = .ok (some (c, x.length))) (hx : s1.receiverChains = x ++ c :: y)
    (h : Yields c n k1 k2 k3 c') :
    ∃ mk, SessionCipher.getOrCreateMessageKeys s1 eph (chainKeyOf .v3 c) n =
      .ok (mk, { s1 with receiverChains := x ++ c' :: y }) ∧ mk.cipherKey = k1 ∧ mk.macKey = k2 ∧ mk.iv = k3 := by
  have hset : ∀ d : ChainS, setChainAt s1 x.length d = { s1 with receiverChains := x ++ d :: y } := by
    intro d
    show { s1 with receiverChains := s1.receiverChains.set x.length d } = _
    rw [hx, List.set_append_right _ _ (Nat.le_refl _), Nat.sub_self]
    rfl
  cases h with
  | @stored u v e q1 q2 q3 q4 =>
    have ht : takeKey n c.messageKeys = some (e, u ++ v) := by
      rw [q2]
      clear q2
      induction u with
      | nil => rw [List.nil_append]; unfold takeKey; rw [if_pos q3]; rfl
      | cons z u ih =>
        rw [List.cons_append]
        unfold takeKey
        rw [if_neg (q4 z (List.mem_cons_self ..)), ih (fun z hz => q4 z (List.mem_cons_of_mem _ hz))]
        rfl
    refine ⟨messageKeysOf e, ?_, rfl, rfl, rfl⟩
    rw [SessionCipher.gocmk_stored hf (by rw [position_chainKeyOf]; exact q1) ht, hset]
  | ahead q1 q2 q3 q4 =>
    subst q4
    refine ⟨((chainKeyOf .v3 c).iter (n - position c)).getMessageKeys, ?_, ?_⟩
    · rw [SessionCipher.gocmk_ahead hf (by rw [position_chainKeyOf]; exact q1) (by rw [position_chainKeyOf]; exact q2) q3 rfl,
        skipped_entries hC.hmac_len _ rfl, iter_key, key_chainKeyOf, position_chainKeyOf, hset]
    · rw [getMessageKeys_v3 hC.hmac_len _ (by rw [ChainKey.iter_kdf]; rfl), iter_key, key_chainKeyOf]
      exact ⟨rfl, rfl, rfl⟩

omit C in
theorem takeKey_absent {n : Nat} : ∀ {l : List MessageKeyS}, (∀ e ∈ l, e.index.getD 0 ≠ n) → takeKey n l = none
  | [], _ => rfl
  | a :: l, h => by
    unfold takeKey
    rw [if_neg (h a (List.mem_cons_self ..)), takeKey_absent (fun e he => h e (List.mem_cons_of_mem _ he))]
    rfl

theorem verifyMac_cases (m : WhisperMessage) (v : Nat) (a b : ECPub) (k : Bytes) :
    m.verifyMac v a b k = .ok () ∨ m.verifyMac v a b k = .error .invalidMessage := by
  unfold WhisperMessage.verifyMac
  simp only
  split
  · exact .inr rfl
  · exact .inl rfl

theorem decrypt_cases (k iv ct : Bytes) : (∃ pt, AES.decrypt k iv ct = .ok pt) ∨ AES.decrypt k iv ct = .error .valueError := by
  unfold AES.decrypt AES.unpad
  split
  · split
    · split
      · exact .inr rfl
      · simp only
        split
        · exact .inl ⟨_, rfl⟩
        · exact .inr rfl
    · exact .inr rfl
  · exact .inr rfl

/-- The code's outcome for one state is the specified one. -/
theorem dwss_of_verdict (hC : C.Lawful) {s : SessionState} (hs : Sane s) {m : WhisperMessage} {seed : Bytes}
    {v : Except Err (Bytes × SessionS)} (h : Verdict s m seed v) :
    SessionCipher.decryptWithSessionState s m seed = v := by
  have ids : ∀ {s1 : SessionState}, Opened s m.senderRatchetKey seed s1 → ∀ cs : List ChainS,
      getRemoteIdentityKey { s1 with receiverChains := cs } = Curve.decodePoint (s.remoteIdentityPublic.getD []) ∧
      getLocalIdentityKey { s1 with receiverChains := cs } = Curve.decodePoint (s.localIdentityPublic.getD []) := by
    intro s1 ho cs
    cases ho <;> exact ⟨rfl, rfl⟩
  cases h with
  | empty h =>
    unfold SessionCipher.decryptWithSessionState hasSenderChain
    rw [h]
    rfl
  | version h1 h2 =>
    have hh : hasSenderChain s = true := h1
    have hgv : getSessionVersion s = 3 := by unfold getSessionVersion; rw [hs.version h1]; rfl
    unfold SessionCipher.decryptWithSessionState
    rw [if_neg (by rw [hh]; simp), if_pos (by rw [hgv]; exact h2)]
  | @noAgreement c h1 h2 h3 h4 =>
    have hsome : s.senderChain.isSome := by rw [h1]; rfl
    have hh : hasSenderChain s = true := hsome
    have hgv : getSessionVersion s = 3 := by unfold getSessionVersion; rw [hs.version hsome]; rfl
    have hf : getReceiverChain s m.senderRatchetKey = .ok none := findChain_nowhere 0 hs.chains.good h3
    obtain ⟨k0, hk0⟩ := hs.sender c h1
    have hkp : getSenderRatchetKeyPair s = .ok ⟨k0, c.senderRatchetKeyPrivate.getD []⟩ := by
      unfold getSenderRatchetKeyPair getSenderRatchetKey senderChainD
      rw [h1]
      simp only [Option.getD_some]
      rw [KeyOf_iff.1 hk0, ok_bind]
      rfl
    have hck : SessionCipher.getOrCreateChainKey s m.senderRatchetKey seed = .error .valueError := by
      unfold SessionCipher.getOrCreateChainKey hasReceiverChain
      rw [hf]
      simp only [ok_bind, Option.isSome_none, Bool.false_eq_true, if_false]
      unfold getRootKey
      rw [createFor_three (hs.version hsome), ok_bind, ok_bind, hkp, ok_bind, createChain_v3 hC.hmac_len]
      cases hd1 : C.dh (c.senderRatchetKeyPrivate.getD []) m.senderRatchetKey with
      | none => rfl
      | some d1 =>
        have hd2 : C.dh (Curve.generateKeyPair seed).priv m.senderRatchetKey = none := by
          rcases h4 with h4 | h4
          · rw [h4] at hd1; cases hd1
          · exact h4
        simp only
        rw [ok_bind, createChain_v3 hC.hmac_len]
        simp only [hd2]
        rfl
    unfold SessionCipher.decryptWithSessionState
    rw [if_neg (by rw [hh]; simp), if_neg (by rw [hgv, h2]; simp), hck]
    rfl
  | used h1 h2 h3 =>
    obtain ⟨hf, hd⟩ := dwss_reads hC hs h1
    rw [hd, SessionCipher.gocmk_duplicate hf (by rw [position_chainKeyOf]; exact h2)
      (takeKey_absent (fun e he hn => h3 (List.mem_map.2 ⟨e, he, hn⟩)))]
    rfl
  | tooFar h1 h2 =>
    obtain ⟨hf, hd⟩ := dwss_reads hC hs h1
    rw [hd, SessionCipher.gocmk_far (by rw [position_chainKeyOf]; exact h2)]
    rfl
  | last h1 h2 h3 h4 =>
    obtain ⟨hf, hd⟩ := dwss_reads hC hs h1
    rw [hd, gocmk_last hf (by rw [position_chainKeyOf]; exact h2) (by rw [position_chainKeyOf]; exact h3) h4]
    rfl
  | badMac h1 h2 h3 h4 h5 =>
    obtain ⟨hf, hd⟩ := dwss_reads hC hs h1
    obtain ⟨mk, hmk, rfl, rfl, rfl⟩ := gocmk_yields hC hf h1.chain.split h2
    rw [hd, hmk, ok_bind]
    simp only
    rw [(ids h1.opened _).1, (ids h1.opened _).2, KeyOf_iff.1 h3, ok_bind, KeyOf_iff.1 h4, ok_bind]
    rcases verifyMac_cases m 3 _ _ mk.macKey with h | h
    · obtain ⟨body, mac, g1, _, g2⟩ := verifyMac_ok hC.hmac_len h (Nat.le_refl 3)
      subst g2
      exact absurd g1 (h5 body)
    · rw [h]
      rfl
  | badBody h1 h2 h3 h4 h5 h6 =>
    obtain ⟨hf, hd⟩ := dwss_reads hC hs h1
    obtain ⟨mk, hmk, rfl, rfl, rfl⟩ := gocmk_yields hC hf h1.chain.split h2
    rw [hd, hmk, ok_bind]
    simp only
    rw [(ids h1.opened _).1, (ids h1.opened _).2, KeyOf_iff.1 h3, ok_bind, KeyOf_iff.1 h4, ok_bind,
      verify_of_mac hC.hmac_len h5 (Nat.le_refl 3), ok_bind]
    rcases decrypt_cases mk.cipherKey mk.iv m.ciphertext with ⟨pt, h⟩ | h
    · exact absurd (aes_cbc_dec hC h) (h6 pt)
    · rw [h]
      rfl
  | plaintext h => exact dwss_of_accepts hC hs.chains hs.sender hs.version hs.five h

/-- For a stored state, the specified outcomes are exactly the code's. -/
theorem verdict_iff (hC : C.Lawful) {s : SessionState} (hs : Sane s) (m : WhisperMessage) (seed : Bytes)
    (v : Except Err (Bytes × SessionS)) : Verdict s m seed v ↔ SessionCipher.decryptWithSessionState s m seed = v := by
  constructor
  · exact dwss_of_verdict hC hs
  · rintro rfl
    obtain ⟨v, hv⟩ := verdict_exists hC hs m seed
    rw [dwss_of_verdict hC hs hv]
    exact hv

/-! ## The record -/

/-- The first archived state that does not refuse decides. -/
theorem tryPrevious_decides {r : SessionRecord} {m : WhisperMessage} {seeds : Nat → Bytes} {p : SessionState}
    (v : Except Err (Bytes × SessionState)) (hne : v ≠ .error .invalidMessage) :
    ∀ (rest : List SessionState) (i k : Nat), rest[k]? = some p →
      (∀ j q, j < k → rest[j]? = some q →
        SessionCipher.decryptWithSessionState q m (seeds (i + j)) = .error .invalidMessage) →
      SessionCipher.decryptWithSessionState p m (seeds (i + k)) = v →
      SessionCipher.tryPrevious r m seeds rest i = (match v with
        | .ok (pt, s) => .ok (pt, { r with previousStates := r.previousStates.eraseIdx (i + k) }.promoteState s)
        | .error e => .error e)
  | [], i, k, h, _, _ => by cases k <;> cases h
  | q :: rest, i, 0, h, _, hv => by
    obtain rfl := Option.some.inj h
    unfold SessionCipher.tryPrevious
    rw [Nat.add_zero] at hv
    rw [hv]
    cases v with
    | ok p => rfl
    | error e =>
      cases e with
      | invalidMessage => exact absurd rfl hne
      | _ => rfl
  | q :: rest, i, k + 1, h, hb, hv => by
    unfold SessionCipher.tryPrevious
    rw [show SessionCipher.decryptWithSessionState q m (seeds i) = _ from hb 0 q (Nat.succ_pos _) rfl]
    simp only
    rw [tryPrevious_decides v hne rest (i + 1) k h (fun j q hj hq => by
      have := hb (j + 1) q (by omega) hq
      rw [show i + (j + 1) = i + 1 + j by omega] at this
      exact this) (by rw [show i + 1 + k = i + (k + 1) by omega]; exact hv)]
    rw [show i + 1 + k = i + (k + 1) by omega]

theorem tryPrevious_nobody {r : SessionRecord} {m : WhisperMessage} {seeds : Nat → Bytes} :
    ∀ (rest : List SessionState) (i : Nat), (∀ j q, rest[j]? = some q →
        SessionCipher.decryptWithSessionState q m (seeds (i + j)) = .error .invalidMessage) →
      SessionCipher.tryPrevious r m seeds rest i = .error .invalidMessage
  | [], _, _ => rfl
  | q :: rest, i, hb => by
    unfold SessionCipher.tryPrevious
    rw [show SessionCipher.decryptWithSessionState q m (seeds i) = _ from hb 0 q rfl]
    simp only
    refine tryPrevious_nobody rest (i + 1) (fun j q hq => ?_)
    have := hb (j + 1) q hq
    rw [show i + (j + 1) = i + 1 + j by omega] at this
    exact this

omit C in
/-- The archived states refuse up to one that decides, or all do. -/
theorem archive_cases (f : Nat → SessionState → Except Err (Bytes × SessionState)) (l : List SessionState) :
    (∃ k p, l[k]? = some p ∧ (∀ j q, j < k → l[j]? = some q → f j q = .error .invalidMessage) ∧
      f k p ≠ .error .invalidMessage) ∨ ∀ j q, l[j]? = some q → f j q = .error .invalidMessage := by
  induction l generalizing f with
  | nil => right; intro j q h; cases j <;> cases h
  | cons a l ih =>
    by_cases ha : f 0 a = .error .invalidMessage
    · rcases ih (fun j q => f (j + 1) q) with ⟨k, p, h1, h2, h3⟩ | h
      · left
        refine ⟨k + 1, p, h1, ?_, h3⟩
        intro j q hj hq
        cases j with
        | zero => obtain rfl := Option.some.inj hq; exact ha
        | succ j => exact h2 j q (by omega) hq
      · right
        intro j q hq
        cases j with
        | zero => obtain rfl := Option.some.inj hq; exact ha
        | succ j => exact h j q hq
    · left
      exact ⟨0, a, rfl, by intro j q hj; omega, ha⟩

theorem dwsr_of_verdict (hC : C.Lawful) {r : SessionRecord} (hr : r.All Sane) (h40 : r.previousStates.length ≤ 40)
    {m : WhisperMessage} {seed : Bytes} {seeds : Nat → Bytes} {v : Except Err (Bytes × SessionRecord)}
    (h : RecordVerdict r m seed seeds v) :
    SessionCipher.decryptWithSessionRecord r m seed seeds = v := by
  have past : ∀ {k : Nat} {p : SessionState} {x : Except Err (Bytes × SessionState)}, r.previousStates[k]? = some p →
      Verdict p m (seeds k) x → SessionCipher.decryptWithSessionState p m (seeds (0 + k)) = x := by
    intro k p x hk hv
    rw [Nat.zero_add]
    exact dwss_of_verdict hC (hr.2 p (List.mem_of_getElem? hk)) hv
  unfold SessionCipher.decryptWithSessionRecord
  cases h with
  | current h => rw [dwss_of_verdict hC hr.1 h]; rfl
  | @currentStops e h hne =>
    rw [dwss_of_verdict hC hr.1 h]
    cases e with
    | invalidMessage => exact absurd rfl hne
    | _ => rfl
  | @archived k p pt s' h h1 h2 h3 =>
    rw [dwss_of_verdict hC hr.1 h]
    simp only
    rw [tryPrevious_decides (.ok (pt, s')) (by intro h; cases h) _ 0 k h2
      (fun j q hj hq => past hq (h1 j q hj hq)) (past h2 h3)]
    simp only
    unfold SessionRecord.promoteState
    simp only [Nat.zero_add]
    have hlt := (List.getElem?_eq_some_iff.1 h2).1
    rw [if_neg (by rw [List.length_cons, List.length_eraseIdx_of_lt hlt]; show ¬ _ > 40; omega)]
  | @archivedStops k p e h h1 h2 h3 hne =>
    rw [dwss_of_verdict hC hr.1 h]
    simp only
    rw [tryPrevious_decides (.error e) (by intro h; exact hne (Except.error.inj h)) _ 0 k h2
      (fun j q hj hq => past hq (h1 j q hj hq)) (past h2 h3)]
  | nobody h h1 =>
    rw [dwss_of_verdict hC hr.1 h]
    simp only
    exact tryPrevious_nobody _ 0 (fun j q hq => past hq (h1 j q hq))

theorem recordVerdict_exists (hC : C.Lawful) {r : SessionRecord} (hr : r.All Sane) (m : WhisperMessage) (seed : Bytes)
    (seeds : Nat → Bytes) : ∃ v, RecordVerdict r m seed seeds v := by
  obtain ⟨v, hv⟩ := verdict_exists hC hr.1 m seed
  cases v with
  | ok p => exact ⟨_, .current hv⟩
  | error e =>
    by_cases he : e = .invalidMessage
    · subst he
      have tr : ∀ {k : Nat} {p : SessionState}, r.previousStates[k]? = some p → ∀ {x},
          SessionCipher.decryptWithSessionState p m (seeds k) = x → Verdict p m (seeds k) x :=
        fun hk _ h => (verdict_iff hC (hr.2 _ (List.mem_of_getElem? hk)) m _ _).2 h
      rcases archive_cases (fun j q => SessionCipher.decryptWithSessionState q m (seeds j)) r.previousStates with
        ⟨k, p, h1, h2, h3⟩ | h
      · have h2' := fun j q hj hq => tr hq (h2 j q hj hq)
        cases hx : SessionCipher.decryptWithSessionState p m (seeds k) with
        | ok x => exact ⟨_, .archived hv h2' h1 (tr h1 hx)⟩
        | error e => exact ⟨_, .archivedStops hv h2' h1 (tr h1 hx) (by rintro rfl; exact h3 hx)⟩
      · exact ⟨_, .nobody hv (fun j q hq => tr hq (h j q hq))⟩
    · exact ⟨_, .currentStops hv he⟩

omit C in
/-- What a caller sees of an outcome, and what is stored. -/
def Spec.reported (a : Address) : Except Err (Bytes × SessionRecord) → Outcome Bytes
  | .ok (pt, r) => ⟨[.session a r], .ok pt⟩
  | .error e => ⟨[], .error e⟩

omit C in
theorem reported_inj {a : Address} {v v' : Except Err (Bytes × SessionRecord)} (h : reported a v = reported a v') :
    v = v' := by
  cases v with
  | error e =>
    cases v' with
    | error e' => exact congrArg _ (Except.error.inj (congrArg Outcome.result h))
    | ok p => cases congrArg Outcome.result h
  | ok p =>
    cases v' with
    | error e' => cases congrArg Outcome.result h
    | ok p' =>
      obtain ⟨a1, a2⟩ := p
      obtain ⟨b1, b2⟩ := p'
      have h1 := Except.ok.inj (congrArg Outcome.result h)
      have h2 := (Write.session.inj (List.cons.inj (congrArg Outcome.writes h)).1).2
      subst h1 h2
      rfl

/-! ## The theorems -/

/-- **C58.** Where a session is stored, reading a message has exactly the outcome the specification gives: plaintext, stored
record and exception, in every case. -/
theorem C58_exact (hC : C.Lawful) (w0 : World) (hw : w0.NoSessions) (cs : List Call) (a : Address) (r : SessionRecord)
    (hr : (Call.after w0 cs).sessions a = some r) (m : WhisperMessage) (seed : Bytes) (seeds : Nat → Bytes)
    (v : Except Err (Bytes × SessionRecord)) :
    RecordVerdict { r with fresh := false } m seed seeds v ↔
      SessionCipher.decryptMsg (Call.after w0 cs) a m seed seeds = reported a v := by
  have hall : SessionRecord.All Sane { r with fresh := false } := sane hC w0 hw cs a r hr
  have h40 := (C22_bounded w0 hw cs a r hr).1
  have key : ∀ v, RecordVerdict { r with fresh := false } m seed seeds v →
      SessionCipher.decryptMsg (Call.after w0 cs) a m seed seeds = reported a v := by
    intro v hv
    have hload : (Call.after w0 cs).loadSession a = { r with fresh := false } := by unfold World.loadSession; rw [hr]
    unfold SessionCipher.decryptMsg World.containsSession
    rw [hload, hr, dwsr_of_verdict hC hall h40 hv]
    cases v <;> rfl
  constructor
  · exact key v
  · intro h
    obtain ⟨v', hv'⟩ := recordVerdict_exists hC hall m seed seeds
    rw [← reported_inj ((key v' hv').symm.trans h)]
    exact hv'

/-- **C58.** There is always one outcome, and only one. -/
theorem C58_one_outcome (hC : C.Lawful) (w0 : World) (hw : w0.NoSessions) (cs : List Call) (a : Address)
    (r : SessionRecord) (hr : (Call.after w0 cs).sessions a = some r) (m : WhisperMessage) (seed : Bytes)
    (seeds : Nat → Bytes) :
    ∃ v, RecordVerdict { r with fresh := false } m seed seeds v ∧
      ∀ v', RecordVerdict { r with fresh := false } m seed seeds v' → v' = v := by
  obtain ⟨v, hv⟩ := recordVerdict_exists (r := { r with fresh := false }) hC (sane hC w0 hw cs a r hr) m seed seeds
  refine ⟨v, hv, fun v' hv' => reported_inj (a := a) ?_⟩
  rw [← (C58_exact hC w0 hw cs a r hr m seed seeds v).1 hv, (C58_exact hC w0 hw cs a r hr m seed seeds v').1 hv']

/-- Keys that a state gives out are keys it offers. -/
theorem messageKey_of_yields {s s1 : SessionState} {m : WhisperMessage} {seed : Bytes} {x y : List ChainS} {c c' : ChainS}
    {k1 k2 k3 : Bytes} (h : Reads s m seed s1 x c y) (hy : Yields c m.counter k1 k2 k3 c') :
    MessageKey s m.senderRatchetKey m.counter k1 k2 k3 := by
  have hpos : ∀ c : ChainS, position c = (c.chainKey.getD {}).index.getD 0 := by
    intro c; unfold position; cases c.chainKey <;> rfl
  have hkey : ∀ c : ChainS, chainKeyBytes c = (c.chainKey.getD {}).key.getD [] := by
    intro c; unfold chainKeyBytes; cases c.chainKey <;> rfl
  have hmem : c ∈ s1.receiverChains := by rw [h.chain.split]; simp
  have hk := h.chain.key
  cases h.opened with
  | known _ _ =>
    cases hy with
    | stored h1 h2 h3 h4 => exact .stored hmem hk (by rw [h2]; simp) h3
    | ahead h1 h2 h3 h4 =>
      rw [hpos] at h1 h4
      rw [hkey] at h4
      exact .ahead hmem hk h1 h4
  | ratchet g1 g2 g3 g4 =>
    rcases List.mem_append.1 (List.mem_of_mem_drop hmem) with h1 | h1
    · exact absurd hk (g1 c h1)
    · obtain rfl := List.mem_singleton.1 h1
      cases hy with
      | stored _ h2 _ _ =>
        exact absurd (congrArg List.length h2) (by simp)
      | ahead h1 h2 h3 h4 => exact .ratchet g2 g3 h4

/-- **C58.** The exceptions: none but `NoSession`, `InvalidMessage`, `DuplicateMessage` and `ValueError`; and `ValueError` only
for a message whose ratchet key allows no agreement, whose counter is at the end of the 32 bits, or which is authentic for a
stored session. -/
theorem C58_exceptions (hC : C.Lawful) (w0 : World) (hw : w0.NoSessions) (cs : List Call) (a : Address) (m : WhisperMessage)
    (seed : Bytes) (seeds : Nat → Bytes) (e : Err)
    (h : (SessionCipher.decryptMsg (Call.after w0 cs) a m seed seeds).result = .error e) :
    (e = .noSession ∧ (Call.after w0 cs).sessions a = none) ∨
    ∃ r, (Call.after w0 cs).sessions a = some r ∧ (e = .invalidMessage ∨ e = .duplicateMessage ∨
      (e = .valueError ∧ ((∃ k, C.dh k m.senderRatchetKey = none) ∨ 2 ^ 32 ≤ m.counter + 1 ∨
        ∃ s ∈ states r, ∃ k1 k2 k3 them me body, MessageKey s m.senderRatchetKey m.counter k1 k2 k3 ∧
          KeyOf s.remoteIdentityPublic them ∧ KeyOf s.localIdentityPublic me ∧
          m.serialized = body ++ (C.hmac k2 ((5 :: them) ++ (5 :: me) ++ body)).take 8))) := by
  cases hr : (Call.after w0 cs).sessions a with
  | none =>
    unfold SessionCipher.decryptMsg World.containsSession at h
    rw [hr] at h
    exact .inl ⟨(Except.error.inj h).symm, rfl⟩
  | some r =>
    refine .inr ⟨r, rfl, ?_⟩
    obtain ⟨v, hv, _⟩ := C58_one_outcome hC w0 hw cs a r hr m seed seeds
    rw [(C58_exact hC w0 hw cs a r hr m seed seeds v).1 hv] at h
    have one : ∀ {s sd e}, s ∈ states r → Verdict s m sd (.error e) → e = .invalidMessage ∨ e = .duplicateMessage ∨
        (e = .valueError ∧ ((∃ k, C.dh k m.senderRatchetKey = none) ∨ 2 ^ 32 ≤ m.counter + 1 ∨
        ∃ s ∈ states r, ∃ k1 k2 k3 them me body, MessageKey s m.senderRatchetKey m.counter k1 k2 k3 ∧
          KeyOf s.remoteIdentityPublic them ∧ KeyOf s.localIdentityPublic me ∧
          m.serialized = body ++ (C.hmac k2 ((5 :: them) ++ (5 :: me) ++ body)).take 8)) := by
      intro s sd e hs hv
      cases hv with
      | empty _ => exact .inl rfl
      | version _ _ => exact .inl rfl
      | noAgreement _ _ _ h => exact .inr (.inr ⟨rfl, .inl (h.elim (fun h => ⟨_, h⟩) (fun h => ⟨_, h⟩))⟩)
      | used _ _ _ => exact .inr (.inl rfl)
      | tooFar _ _ => exact .inl rfl
      | last _ _ _ h => exact .inr (.inr ⟨rfl, .inr (.inl h)⟩)
      | badMac _ _ _ _ _ => exact .inl rfl
      | badBody h1 h2 h3 h4 h5 _ =>
        exact .inr (.inr ⟨rfl, .inr (.inr ⟨s, hs, _, _, _, _, _, _, messageKey_of_yields h1 h2, h3, h4, h5⟩)⟩)
    cases hv with
    | current _ => cases h
    | archived _ _ _ _ => cases h
    | currentStops hv _ => rw [← Except.error.inj h]; exact one (List.mem_cons_self ..) hv
    | archivedStops _ _ hk hv _ =>
      rw [← Except.error.inj h]; exact one (List.mem_cons_of_mem _ (List.mem_of_getElem? hk)) hv
    | nobody _ _ => exact .inl (Except.error.inj h).symm

end

section
attribute [local instance] toy
open Example Spec

/-- `C58_exact`: in one and the same store a reply is read, a message of another version and a forged one are refused, one
with a ratchet key of the wrong size stops, and after reading, the reply is refused as a duplicate. -/
example : (SessionCipher.decryptMsg alice2 bobAddr replyMsg (key 43) (fun _ => key 44)).result = .ok [121, 111] ∧
    (SessionCipher.decryptMsg alice2 bobAddr { replyMsg with messageVersion := 2 } (key 43) (fun _ => key 44)).result =
      .error .invalidMessage ∧
    (SessionCipher.decryptMsg alice2 bobAddr { replyMsg with serialized := [] } (key 43) (fun _ => key 44)).result =
      .error .invalidMessage ∧
    (SessionCipher.decryptMsg alice2 bobAddr { replyMsg with senderRatchetKey := [] } (key 43) (fun _ => key 44)).result =
      .error .valueError ∧
    (SessionCipher.decryptMsg ((SessionCipher.decryptMsg alice2 bobAddr replyMsg (key 43) (fun _ => key 44)).final alice2)
      bobAddr replyMsg (key 43) (fun _ => key 44)).result = .error .duplicateMessage := by decide +kernel

end
end Axolotl
