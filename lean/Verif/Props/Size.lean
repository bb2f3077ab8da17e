import Verif.Props.Application
import Verif.Props.Storage

/-!
# C64: the size of what is stored
-/

namespace Axolotl
open Spec Wire
section
variable [C : Crypto]

/-- At most `n` bytes, if there. -/
def Short (n : Nat) (b : Option Bytes) : Prop := ∀ x, b = some x → x.length ≤ n

omit C in
theorem short_some {n : Nat} {b : Bytes} (h : b.length ≤ n) : Short n (some b) := by
  intro x hx
  rw [← Option.some.inj hx]
  exact h

omit C in
theorem short_none {n : Nat} : Short n none := by
  intro x hx
  cases hx

omit C in
theorem short_getD {n : Nat} {b : Option Bytes} (h : Short n b) : (b.getD []).length ≤ n := by
  cases b with
  | none => simp
  | some b => exact h b rfl

/-- A stored key of a skipped message: number, cipher key, MAC key and IV, of the right sizes. -/
def FullEntry (e : MessageKeyS) : Prop := ∃ i ck mk iv, e = { index := some i, cipherKey := some ck, macKey := some mk, iv := some iv } ∧
  ck.length = 32 ∧ mk.length = 32 ∧ iv.length = 16

structure SlimChain (c : ChainS) : Prop where
  key : Short 33 c.senderRatchetKey
  priv : Short 32 c.senderRatchetKeyPrivate
  chain : ∀ k, c.chainKey = some k → Short 32 k.key
  keys : ∀ e ∈ c.messageKeys, FullEntry e

structure SlimPending (p : PendingKeyExchangeS) : Prop where
  base : Short 33 p.localBaseKey
  basePriv : Short 32 p.localBaseKeyPrivate
  ratchet : Short 33 p.localRatchetKey
  ratchetPriv : Short 32 p.localRatchetKeyPrivate
  identity : Short 33 p.localIdentityKey
  identityPriv : Short 32 p.localIdentityKeyPrivate

/-- The sizes of the byte strings in a state. -/
structure SlimState (s : SessionState) : Prop where
  me : Short 33 s.localIdentityPublic
  them : Short 33 s.remoteIdentityPublic
  root : Short 32 s.rootKey
  sender : ∀ c, s.senderChain = some c → SlimChain c ∧ c.messageKeys = []
  receivers : ∀ c ∈ s.receiverChains, SlimChain c
  pending : ∀ p, s.pendingKeyExchange = some p → SlimPending p
  announced : ∀ p, s.pendingPreKey = some p → Short 33 p.baseKey
  base : Short 33 s.aliceBaseKey

omit C in
theorem slim_empty : SlimState {} where
  me := short_none
  them := short_none
  root := short_none
  sender := by intro c hc; cases hc
  receivers := by intro c hc; cases hc
  pending := by intro c hc; cases hc
  announced := by intro c hc; cases hc
  base := short_none

theorem macKeyOf_len (hlen : ∀ k m, (C.hmac k m).length = 32) (k : Bytes) : (macKeyOf k).length = 32 := by
  unfold macKeyOf messageOkm
  rw [List.length_take, List.length_drop, ← (C11_library_sizes hlen _ _ _).1, C11_length hlen]; omega

theorem hkdf64_len (hlen : ∀ k m, (C.hmac k m).length = 32) (salt ikm info : Bytes) : (hkdf salt ikm info 64).length = 64 := by
  rw [← (C11_library_sizes hlen _ _ _).2.1, C11_length hlen]

theorem ratchetRoot_len (root secret : Bytes) : (ratchetRoot root secret).length ≤ 32 := by
  unfold ratchetRoot
  rw [List.length_take]; omega

theorem ratchetChain_len (hlen : ∀ k m, (C.hmac k m).length = 32) (root secret : Bytes) :
    (ratchetChain root secret).length ≤ 32 := by
  unfold ratchetChain
  rw [List.length_drop, hkdf64_len hlen]; omega

theorem chainAt_le (hlen : ∀ k m, (C.hmac k m).length = 32) {k : Bytes} (hk : k.length ≤ 32) (n : Nat) :
    (chainAt k n).length ≤ 32 := by
  cases n with
  | zero => exact hk
  | succ n => show (C.hmac _ _).length ≤ _; rw [hlen]; omega

theorem drawn_len (hC : C.Lawful) {seed : Bytes} (h : (C.genPriv seed).length = 32) : (C.genPub (C.genPriv seed)).length = 32 :=
  hC.genPub_len _ h

omit C in
theorem slim_keyOf {o : Option Bytes} {k : ECPub} (h : KeyOf o k) : k.length ≤ 32 := by
  obtain ⟨x, _, rfl⟩ := h
  rw [List.length_take]; omega

omit C in
theorem slim_start {k : Bytes} (h : k.length ≤ 32) : ∀ x, startOf k = some x → Short 32 x.key := by
  intro x hx
  rw [← Option.some.inj hx]
  exact short_some h

omit C in
theorem slim_chainKeyBytes {c : ChainS} (h : SlimChain c) : (chainKeyBytes c).length ≤ 32 := by
  unfold chainKeyBytes
  cases hk : c.chainKey with
  | none => simp
  | some k => exact (short_getD (h.chain k hk) : (k.key.getD []).length ≤ 32)

theorem slim_opened (hC : C.Lawful) {s s1 : SessionState} {eph : ECPub} {seed : Bytes} (h : Opened s eph seed s1)
    (hs : SlimState s) : SlimState s1 := by
  cases h with
  | known _ _ => exact hs
  | @ratchet c d1 d2 _ hc h1 h2 =>
    obtain ⟨g1, g2⟩ := hC.dh_size _ _ _ h2
    have hsc := hs.sender c hc
    refine ⟨hs.me, hs.them, short_some (ratchetRoot_len _ _), ?_, ?_, hs.pending, hs.announced, hs.base⟩
    · intro c' hc'
      rw [← Option.some.inj hc']
      refine ⟨⟨short_some ?_, short_some (by rw [g1]; omega), slim_start (ratchetChain_len hC.hmac_len _ _), hsc.1.keys⟩, hsc.2⟩
      rw [List.length_cons, drawn_len hC g1]; omega
    · intro c' hc'
      rcases List.mem_append.1 (List.mem_of_mem_drop hc') with h | h
      · exact hs.receivers c' h
      · rw [List.mem_singleton.1 h]
        refine ⟨short_some (by rw [List.length_cons, g2]; omega), short_none, slim_start (ratchetChain_len hC.hmac_len _ _), ?_⟩
        intro e he
        cases he

theorem slim_yields (hC : C.Lawful) {c c' : ChainS} {n : Nat} {k1 k2 k3 : Bytes} (h : Yields c n k1 k2 k3 c')
    (hc : SlimChain c) : SlimChain c' := by
  cases h with
  | @stored x y e h1 h2 h3 h4 =>
    refine ⟨hc.key, hc.priv, hc.chain, ?_⟩
    intro e' he'
    apply hc.keys e'
    rw [h2]
    rcases List.mem_append.1 he' with h | h
    · exact List.mem_append_left _ h
    · exact List.mem_append_right _ (List.mem_cons_of_mem _ h)
  | ahead h1 h2 h3 h4 =>
    refine ⟨hc.key, hc.priv, ?_, ?_⟩
    · intro k hk
      rw [← Option.some.inj hk]
      exact short_some (chainAt_le hC.hmac_len (slim_chainKeyBytes hc) _)
    · intro e' he'
      rcases List.mem_append.1 he' with h | h
      · exact hc.keys e' h
      · obtain ⟨d, _, rfl⟩ := List.mem_map.1 h
        exact ⟨_, _, _, _, rfl, cipherKeyOf_len hC.hmac_len _, macKeyOf_len hC.hmac_len _, ivOf_len hC.hmac_len _⟩

theorem slim_accepts (hC : C.Lawful) {s s' : SessionState} {m : WhisperMessage} {seed pt : Bytes}
    (h : Accepts s m seed pt s') (hs : SlimState s) : SlimState s' := by
  cases h with
  | intro _ _ hop hsp _ _ hy _ _ _ _ _ =>
    have h1 := slim_opened hC hop hs
    refine ⟨h1.me, h1.them, h1.root, h1.sender, ?_, h1.pending, (by intro p hp; cases hp), h1.base⟩
    intro c hc
    rcases List.mem_append.1 hc with hc | hc
    · exact h1.receivers c (by rw [hsp]; exact List.mem_append_left _ hc)
    · rcases List.mem_cons.1 hc with rfl | hc
      · exact slim_yields hC hy (h1.receivers _ (by rw [hsp]; simp))
      · exact h1.receivers c (by rw [hsp]; exact List.mem_append_right _ (List.mem_cons_of_mem _ hc))

theorem slim_record (hC : C.Lawful) {r r' : SessionRecord} {m : WhisperMessage} {seed pt : Bytes} {seeds : Nat → Bytes}
    (h : RecordVerdict r m seed seeds (.ok (pt, r'))) (hr : r.All SlimState) : r'.All SlimState := by
  cases h with
  | current hv =>
    cases hv with
    | plaintext ha => exact ⟨slim_accepts hC ha hr.1, hr.2⟩
  | archived _ _ hk hv =>
    cases hv with
    | plaintext ha =>
      refine ⟨slim_accepts hC ha (hr.2 _ (List.mem_of_getElem? hk)), ?_⟩
      intro s hs
      rcases List.mem_cons.1 hs with rfl | hs
      · exact hr.1
      · exact hr.2 s (List.mem_of_mem_eraseIdx hs)

theorem slim_sends {s s' : SessionState} {pt : Bytes} {c : Ciphertext} (hC : C.Lawful) (h : Sends s pt (.ok (c, s')))
    (hs : SlimState s) : SlimState s' := by
  have key : ∀ k, s.senderChain = some k → SlimState (afterSending s k) := by
    intro k hk
    refine ⟨hs.me, hs.them, hs.root, ?_, hs.receivers, hs.pending, hs.announced, hs.base⟩
    intro c' hc'
    rw [← Option.some.inj hc']
    have h1 := hs.sender k hk
    refine ⟨⟨h1.1.key, h1.1.priv, ?_, h1.1.keys⟩, h1.2⟩
    intro x hx
    rw [← Option.some.inj hx]
    exact short_some (by rw [hC.hmac_len]; omega)
  cases h with
  | message h _ _ _ _ _ _ => exact key _ h
  | announcement h _ _ _ _ _ _ _ _ => exact key _ h

theorem slim_initiator (hC : C.Lawful) {me them rk : ECPub} {seed secret okm : Bytes} (hme : me.length ≤ 32)
    (hthem : them.length ≤ 32) (hokm : okm.length = 64) (hd : C.dh (C.genPriv seed) rk = some secret) :
    SlimState (initiatorState me them okm rk seed secret) := by
  obtain ⟨g1, g2⟩ := hC.dh_size _ _ _ hd
  refine ⟨short_some (by rw [List.length_cons]; omega), short_some (by rw [List.length_cons]; omega),
    short_some (ratchetRoot_len _ _), ?_, ?_, (by intro p hp; cases hp), (by intro p hp; cases hp), short_none⟩
  · intro c hc
    rw [← Option.some.inj hc]
    refine ⟨⟨short_some ?_, short_some (by rw [g1]; omega), slim_start (ratchetChain_len hC.hmac_len _ _), ?_⟩, rfl⟩
    · rw [List.length_cons, drawn_len hC g1]; omega
    · intro e he; cases he
  · intro c hc
    rw [List.mem_singleton.1 hc]
    refine ⟨short_some (by rw [List.length_cons, g2]; omega), short_none, slim_start ?_, ?_⟩
    · rw [List.length_drop, hokm]; omega
    · intro e he; cases he

omit C in
theorem slim_answerer {me them : ECPub} {okm : Bytes} {k : KeyPair} (hme : me.length ≤ 32)
    (hthem : them.length ≤ 32) (hokm : okm.length = 64) (hpub : k.pub.length ≤ 32) (hpriv : k.priv.length ≤ 32) :
    SlimState (answererState me them okm k) := by
  refine ⟨short_some (by rw [List.length_cons]; omega), short_some (by rw [List.length_cons]; omega),
    short_some (by rw [List.length_take]; omega), ?_, (by intro c hc; cases hc), (by intro p hp; cases hp),
    (by intro p hp; cases hp), short_none⟩
  intro c hc
  rw [← Option.some.inj hc]
  refine ⟨⟨short_some ?_, short_some hpriv, slim_start (by rw [List.length_drop, hokm]; omega), ?_⟩, rfl⟩
  · rw [List.length_cons]; omega
  · intro e he; cases he

theorem setup_okm (hC : C.Lawful) {a base : ECPriv} {idB spk : ECPub} {otk : Option ECPub} {okm : Bytes}
    (h : SetupMaterial a base idB spk otk okm) : okm.length = 64 ∧ base.length = 32 ∧ idB.length = 32 := by
  obtain ⟨d1, d2, d3, d4, _, h2, _, _, rfl⟩ := h
  exact ⟨hkdf64_len hC.hmac_len _ _ _, hC.dh_size _ _ _ h2⟩

theorem answer_okm (hC : C.Lawful) {b spk : ECPriv} {otk : Option ECPriv} {idA base : ECPub} {okm : Bytes}
    (h : AnswerMaterial b spk otk idA base okm) :
    okm.length = 64 ∧ spk.length = 32 ∧ idA.length = 32 ∧ base.length = 32 := by
  obtain ⟨d1, d2, d3, d4, h1, h2, _, _, rfl⟩ := h
  exact ⟨hkdf64_len hC.hmac_len _ _ _, (hC.dh_size _ _ _ h1).1, (hC.dh_size _ _ _ h1).2, (hC.dh_size _ _ _ h2).2⟩

omit C in
theorem slim_new {old : Option SessionRecord} {s : SessionState} (ho : ∀ r, old = some r → r.All SlimState) (hs : SlimState s) :
    (newRecord old s).All SlimState := by
  refine ⟨hs, ?_⟩
  intro x hx
  cases old with
  | none => cases hx
  | some r => exact all_states (ho r rfl) (List.mem_of_mem_take hx)

theorem slim_exchanged (hC : C.Lawful) {identity base ratchet : KeyPair} {m : KeyExchangeMessage} {seed : Bytes}
    {s : SessionState} (hi : identity.pub.length ≤ 32) (hr : ratchet.pub.length ≤ 32) (hp : ratchet.priv.length ≤ 32)
    (h : FromExchange identity base ratchet m seed (.ok s)) : SlimState s := by
  cases h with
  | session _ _ h =>
    cases h with
    | initiator _ h1 h2 =>
      obtain ⟨g1, _, g3⟩ := setup_okm hC h1
      exact slim_initiator hC hi (by omega) g1 h2
    | answerer _ h1 =>
      obtain ⟨g1, _, g3, _⟩ := answer_okm hC h1
      exact slim_answerer hi (by omega) g1 hr hp

omit C in
theorem slim_pendingKeys {p : PendingKeyExchangeS} {identity base ratchet : KeyPair} (hp : SlimPending p)
    (h : PendingKeys p identity base ratchet) :
    identity.pub.length ≤ 32 ∧ ratchet.pub.length ≤ 32 ∧ ratchet.priv.length ≤ 32 :=
  ⟨slim_keyOf h.identity.1, slim_keyOf h.ratchet.1, by rw [← h.ratchet.2]; exact short_getD hp.ratchetPriv⟩

omit C in
theorem slim_pendingOf {w : World} {a : Address} {p : PendingKeyExchangeS}
    (hw : ∀ a r, w.sessions a = some r → r.All SlimState) (h : Spec.pendingOf (w.sessions a) = some p) : SlimPending p := by
  unfold Spec.pendingOf at h
  cases hr : w.sessions a with
  | none => rw [hr] at h; cases h
  | some r => rw [hr] at h; exact (hw a r hr).1.pending p h

theorem slim_answerKeys (hC : C.Lawful) {w : World} {a : Address} {rnd : SessionBuilder.InitiateRand}
    {identity base ratchet : KeyPair} {flags : Nat} (hid : w.identityKeyPair.pub.length = 32)
    (hseed : rnd.ratchetSeed.length = 32) (hw : ∀ a r, w.sessions a = some r → r.All SlimState)
    (h : AnswerKeys w a rnd identity base ratchet flags) :
    identity.pub.length ≤ 32 ∧ ratchet.pub.length ≤ 32 ∧ ratchet.priv.length ≤ 32 := by
  cases h with
  | new _ =>
    have := hC.genPriv_len _ hseed
    exact ⟨by omega, by show (C.genPub _).length ≤ _; rw [drawn_len hC this]; omega, by show (C.genPriv _).length ≤ _; omega⟩
  | pending h1 h2 => exact slim_pendingKeys (slim_pendingOf hw h1) h2

theorem slim_does (hC : C.Lawful) {w : World} (hid : w.identityKeyPair.pub.length = 32)
    (hw : ∀ a r, w.sessions a = some r → r.All SlimState) {c : Call} (hc : Sized c) {o : Outcome Reply} (h : Does w c o)
    {a : Address} {r' : SessionRecord} (hm : .session a r' ∈ o.writes) : r'.All SlimState := by
  have hnew : ∀ b s, SlimState s → (newRecord (w.sessions b) s).All SlimState :=
    fun b s hs => slim_new (fun r hr => hw b r hr) hs
  have hask : ∀ b n baseSeed ratchetSeed sig sigRand, baseSeed.length = 32 → ratchetSeed.length = 32 →
      C.calcSig sigRand w.identityKeyPair.priv (5 :: C.genPub (C.genPriv baseSeed)) = some sig →
      (withPending w b n baseSeed ratchetSeed).All SlimState := by
    intro b n bs rs sig sr h1 h2 h3
    have g1 := hC.genPriv_len _ h1
    have g2 := hC.genPriv_len _ h2
    have g3 := drawn_len hC g1
    have g4 := drawn_len hC g2
    have g5 := (hC.sig_size _ _ _ _ h3).1
    have hp : SlimPending
      { sequence := some n
        localBaseKey := some (5 :: C.genPub (C.genPriv bs)), localBaseKeyPrivate := some (C.genPriv bs)
        localRatchetKey := some (5 :: C.genPub (C.genPriv rs)), localRatchetKeyPrivate := some (C.genPriv rs)
        localIdentityKey := some (5 :: w.identityKeyPair.pub), localIdentityKeyPrivate := some w.identityKeyPair.priv } := by
      refine ⟨short_some ?_, short_some ?_, short_some ?_, short_some ?_, short_some ?_, short_some ?_⟩ <;>
        (try rw [List.length_cons]) <;> omega
    unfold withPending
    cases hr : w.sessions b with
    | none =>
      refine ⟨⟨short_none, short_none, short_none, (by intro c hc; cases hc), (by intro c hc; cases hc), ?_,
        (by intro c hc; cases hc), short_none⟩, by intro s hs; cases hs⟩
      intro p hp'
      rw [← Option.some.inj hp']
      exact hp
    | some r =>
      have hs := (hw b r hr).1
      refine ⟨⟨hs.me, hs.them, hs.root, hs.sender, hs.receivers, ?_, hs.announced, hs.base⟩, (hw b r hr).2⟩
      intro p hp'
      rw [← Option.some.inj hp']
      exact hp
  cases h with
  | encrypt h1 h2 =>
    simp only [List.mem_singleton] at hm
    injection hm with e1 e2
    subst e1; subst e2
    exact ⟨slim_sends hC h2 (hw _ _ h1).1, (hw _ _ h1).2⟩
  | read h1 h2 =>
    simp only [List.mem_singleton] at hm
    injection hm with e1 e2
    subst e1; subst e2
    exact slim_record hC h2 ⟨(hw _ _ h1).1, (hw _ _ h1).2⟩
  | preKeyAgain _ h1 _ h2 =>
    simp at hm
    obtain ⟨rfl, rfl⟩ := hm
    exact slim_record hC h2 ⟨(hw _ _ h1).1, (hw _ _ h1).2⟩
  | @preKeyNew b m seed seeds s r2 pt _ _ h1 h2 =>
    have : r' = r2 := by
      cases hx : consumedId m.preKeyId <;> simp [hx] at hm <;> exact hm.2
    subst this
    refine slim_record hC h2 (hnew _ _ ?_)
    cases h1 with
    | session _ hp _ hm' _ _ =>
      obtain ⟨g1, g2, g3, g4⟩ := answer_okm hC hm'
      have hs := slim_answerer (me := w.identityKeyPair.pub) (by omega) (by omega : m.identityKey.length ≤ 32) g1
        (slim_keyOf hp.1) (by omega)
      exact ⟨hs.me, hs.them, hs.root, hs.sender, hs.receivers, hs.pending, hs.announced,
        short_some (by rw [List.length_cons]; omega)⟩
  | @bundle b bd baseSeed ratchetSeed s _ h1 =>
    simp at hm
    obtain ⟨rfl, rfl⟩ := hm
    refine hnew _ _ ?_
    cases h1 with
    | session _ _ hm' hd _ _ _ _ _ =>
      obtain ⟨g1, g2, g3⟩ := setup_okm hC hm'
      have g4 := drawn_len hC g2
      have hs := slim_initiator hC (me := w.identityKeyPair.pub) (by omega) (by omega : bd.identityKey.length ≤ 32) g1 hd
      refine ⟨hs.me, hs.them, hs.root, hs.sender, hs.receivers, hs.pending, ?_,
        short_some (by rw [List.length_cons]; omega)⟩
      intro p hp
      rw [← Option.some.inj hp]
      exact short_some (by rw [List.length_cons]; omega)
  | @request b m rnd o' _ _ h1 =>
    have hm : .session a r' ∈ o'.writes := hm
    cases h1 with
    | badSignature | unverifiable | noSession => cases hm
    | noReply _ hk hf _ =>
      simp at hm
      obtain ⟨rfl, rfl⟩ := hm
      obtain ⟨g1, g2, g3⟩ := slim_answerKeys hC hid hc.2 hw hk
      exact hnew _ _ (slim_exchanged hC g1 g2 g3 hf)
    | reply _ hk hf _ =>
      simp at hm
      obtain ⟨rfl, rfl⟩ := hm
      obtain ⟨g1, g2, g3⟩ := slim_answerKeys hC hid hc.2 hw hk
      exact hnew _ _ (slim_exchanged hC g1 g2 g3 hf)
  | @response b m rnd o' _ _ h1 =>
    have hm : .session a r' ∈ o'.writes := hm
    cases h1 with
    | stale | crossing | noSession | badSignature | unverifiable => cases hm
    | done ha hk hf _ =>
      simp at hm
      obtain ⟨rfl, rfl⟩ := hm
      obtain ⟨g1, g2, g3⟩ := slim_pendingKeys (slim_pendingOf hw ha.1) hk
      exact hnew _ _ (slim_exchanged hC g1 g2 g3 hf)
  | ask h1 _ =>
    simp at hm
    obtain ⟨rfl, rfl⟩ := hm
    exact hask _ _ _ _ _ _ hc.1 hc.2 h1
  | askUnsendable h1 _ _ =>
    simp at hm
    obtain ⟨rfl, rfl⟩ := hm
    exact hask _ _ _ _ _ _ hc.1 hc.2 h1
  | encryptNothing | encryptFails | readNothing | readFails | preKeyUntrusted | preKeyNoSession | bundleUntrusted
  | bundleFails | exchangeUntrusted | askFails => cases hm
  | preKeyAgainFails | preKeyNewFails => simp at hm

theorem slim_step (hC : C.Lawful) {w : World} (hr : Reached w) (hw : ∀ a r, w.sessions a = some r → r.All SlimState)
    (x : Step) (hx : ∀ c, x = .call c → Sized c) : ∀ a r, (x.next w).sessions a = some r → r.All SlimState := by
  intro a r h
  cases x with
  | app o => exact hw a r (op_record h)
  | call c =>
    have h : (w.applyAll (c.run w).writes).sessions a = some r := h
    rcases applyAll_sessions (ws := (c.run w).writes) (w := w) (a := a) with h1 | ⟨r', hm, h1⟩
    · rw [h1] at h; exact hw a r h
    · rw [h1] at h
      obtain rfl := Option.some.inj h
      exact slim_does hC hr.identity hw (hx c rfl) ((reached_exact hC hr c (hx c rfl) _).2 rfl) hm

theorem slim_steps (hC : C.Lawful) (w0 : World) (hw : w0.NoSessions) (hid : w0.identityKeyPair.pub.length = 32)
    (ss : List Step) (hs : ∀ x ∈ ss, Step.Sane x) (hz : ∀ c ∈ callsOf ss, Sized c) :
    ∀ a r, (Step.after w0 ss).sessions a = some r → r.All SlimState := by
  have key : ∀ n, ∀ a r, (Step.after w0 (ss.take n)).sessions a = some r → r.All SlimState := by
    intro n
    induction n with
    | zero =>
      intro a r h
      have h : w0.sessions a = some r := h
      rw [hw a] at h
      cases h
    | succ n ih =>
      cases hx : ss[n]? with
      | none =>
        have hl : ss.length ≤ n := by simpa using hx
        rw [List.take_of_length_le (by omega)]
        rw [List.take_of_length_le (by omega)] at ih
        exact ih
      | some x =>
        have ht : ss.take (n + 1) = ss.take n ++ [x] := by rw [List.take_add_one, hx]; rfl
        have hn : Step.after w0 (ss.take (n + 1)) = x.next (Step.after w0 (ss.take n)) := by
          rw [ht]; unfold Step.after; rw [List.foldl_append]; rfl
        rw [hn]
        have hmem := List.mem_of_getElem? hx
        refine slim_step hC (steps_reached hC w0 hw hid _ fun y hy => hs y (List.mem_of_mem_take hy)) ih x ?_
        intro c hc
        subst hc
        exact hz c (callsOf_mem hmem)
  have := key ss.length
  rw [List.take_length] at this
  exact this

/-! ## Sizes of stored structures -/

omit C in
theorem leb_pos (n : Nat) : 1 ≤ (leb n).length := by
  rw [leb]
  split <;> simp

omit C in
theorem leb_upto {n f : Nat} (hf : 0 < f) (h : n < 128 ^ f) : (leb n).length ≤ f := by
  rcases leb_length f n h with h | h
  · exact h
  · omega

omit C in
theorem bytesField_length (t : UInt8) (b : Bytes) : (bytesField t b).length = 1 + (leb b.length).length + b.length := by
  unfold bytesField
  rw [List.length_cons, List.length_append]
  omega

omit C in
theorem bytesField_small {t : UInt8} {b : Bytes} {n : Nat} (h : b.length ≤ n) (hn : n < 128) : (bytesField t b).length ≤ n + 2 := by
  rw [bytesField_length, leb_small (by omega)]
  simp only [List.length_cons, List.length_nil]
  omega

omit C in
theorem numField_le {t : UInt8} {n : Nat} (h : n < 2 ^ 32) : (numField t n).length ≤ 6 := by
  unfold numField
  have := leb_upto (n := n) (f := 5) (by omega) (by omega)
  rw [List.length_cons]; omega

omit C in
theorem opt_le {α : Type} {f : α → Bytes} {o : Option α} {n : Nat} (h : ∀ a, o = some a → (f a).length ≤ n) :
    (opt f o).length ≤ n := by
  cases o with
  | none => exact Nat.zero_le _
  | some a => exact h a rfl

omit C in
theorem opt_num {t : UInt8} {o : Option Nat} (h : OptLt o (2 ^ 32)) : (opt (numField t) o).length ≤ 6 :=
  opt_le fun a ha => numField_le (h a ha)

omit C in
theorem opt_bytes {t : UInt8} {o : Option Bytes} {n : Nat} (h : Short n o) (hn : n < 128) :
    (opt (bytesField t) o).length ≤ n + 2 :=
  opt_le fun a ha => bytesField_small (h a ha) hn

omit C in
theorem each_le {α : Type} {f : α → Bytes} {g : α → Nat} {l : List α} (h : ∀ a ∈ l, (f a).length ≤ g a) :
    (each f l).length ≤ (l.map g).sum := by
  induction l with
  | nil => exact Nat.zero_le _
  | cons a l ih =>
    have h1 := h a (List.mem_cons_self ..)
    have h2 := ih fun b hb => h b (List.mem_cons_of_mem _ hb)
    simp only [each, List.length_append, List.map_cons, List.sum_cons]
    omega

omit C in
theorem each_ge {α : Type} {f : α → Bytes} {g : α → Nat} {l : List α} (h : ∀ a ∈ l, g a ≤ (f a).length) :
    (l.map g).sum ≤ (each f l).length := by
  induction l with
  | nil => exact Nat.zero_le _
  | cons a l ih =>
    have h1 := h a (List.mem_cons_self ..)
    have h2 := ih fun b hb => h b (List.mem_cons_of_mem _ hb)
    simp only [each, List.length_append, List.map_cons, List.sum_cons]
    omega

omit C in
theorem sum_const {α : Type} (l : List α) (n : Nat) : (l.map fun _ => n).sum = n * l.length := by
  induction l with
  | nil => rfl
  | cons a l ih => simp only [List.map_cons, List.sum_cons, ih, List.length_cons, Nat.mul_add]; omega

omit C in
theorem sum_affine {α : Type} (l : List α) (g : α → Nat) (n k : Nat) : (l.map fun a => n + k * g a).sum = n * l.length + k * (l.map g).sum := by
  induction l with
  | nil => rfl
  | cons a l ih => simp only [List.map_cons, List.sum_cons, ih, List.length_cons, Nat.mul_add]; omega

omit C in
theorem entry_size {e : MessageKeyS} (h : FullEntry e) (hi : OptLt e.index (2 ^ 32)) :
    90 ≤ (bytesField 0x22 (storedMessageKey e)).length ∧ (bytesField 0x22 (storedMessageKey e)).length ≤ 94 := by
  obtain ⟨i, ck, mk, iv, rfl, h1, h2, h3⟩ := h
  have h4 := numField_le (t := 0x08) (hi i rfl)
  have h5 : 2 ≤ (numField 0x08 i).length := by
    unfold numField
    rw [List.length_cons]
    have := leb_pos i
    omega
  have h6 : ∀ (t : UInt8) (b : Bytes) n, b.length = n → n < 128 → (bytesField t b).length = n + 2 := by
    intro t b n hb hn
    rw [bytesField_length, leb_small (by omega), hb]
    simp only [List.length_cons, List.length_nil]
    omega
  have hl : (storedMessageKey ⟨some i, some ck, some mk, some iv⟩).length = (numField 0x08 i).length + 34 + 34 + 18 := by
    unfold storedMessageKey
    simp only [opt, List.length_append]
    rw [h6 _ ck 32 h1 (by omega), h6 _ mk 32 h2 (by omega), h6 _ iv 16 h3 (by omega)]
  rw [bytesField_length, leb_small (by rw [hl]; omega), hl]
  simp only [List.length_cons, List.length_nil]
  omega

omit C in
theorem chain_size {c : ChainS} (h : SlimChain c) (hok : c.Ok) :
    90 * c.messageKeys.length ≤ (storedChain c).length ∧ (storedChain c).length ≤ 111 + 94 * c.messageKeys.length := by
  have h1 := opt_bytes (t := 0x0A) h.key (by omega)
  have h2 := opt_bytes (t := 0x12) h.priv (by omega)
  have h3 : (opt (fun k => bytesField 0x1A (storedChainKey k)) c.chainKey).length ≤ 42 := by
    refine opt_le fun k hk => bytesField_small (n := 40) ?_ (by omega)
    unfold storedChainKey
    rw [List.length_append]
    have g1 := opt_num (t := 0x08) (hok.chainKey k hk).index
    have g2 := opt_bytes (t := 0x12) (h.chain k hk) (by omega)
    omega
  have h4 : (each (fun k => bytesField 0x22 (storedMessageKey k)) c.messageKeys).length ≤ 94 * c.messageKeys.length := by
    rw [← sum_const]
    exact each_le fun e he => (entry_size (h.keys e he) (hok.messageKeys e he).index).2
  have h5 : 90 * c.messageKeys.length ≤ (each (fun k => bytesField 0x22 (storedMessageKey k)) c.messageKeys).length := by
    rw [← sum_const]
    exact each_ge fun e he => (entry_size (h.keys e he) (hok.messageKeys e he).index).1
  unfold storedChain
  simp only [List.length_append]
  omega

omit C in
theorem chainField_size {c : ChainS} {t : UInt8} (h : SlimChain c) (hok : c.Ok) (hn : c.messageKeys.length < 2 ^ 32) :
    90 * c.messageKeys.length ≤ (bytesField t (storedChain c)).length ∧
    (bytesField t (storedChain c)).length ≤ 118 + 94 * c.messageKeys.length := by
  obtain ⟨h1, h2⟩ := chain_size h hok
  have h3 := leb_upto (n := (storedChain c).length) (f := 6) (by omega) (by omega)
  rw [bytesField_length]
  omega

omit C in
theorem pendingExchange_size {p : PendingKeyExchangeS} (h : SlimPending p) (hok : p.Ok) : (storedPendingExchange p).length ≤ 213 := by
  have h0 := opt_num (t := 0x08) hok.sequence
  have h1 := opt_bytes (t := 0x12) h.base (by omega)
  have h2 := opt_bytes (t := 0x1A) h.basePriv (by omega)
  have h3 := opt_bytes (t := 0x22) h.ratchet (by omega)
  have h4 := opt_bytes (t := 0x2A) h.ratchetPriv (by omega)
  have h5 := opt_bytes (t := 0x3A) h.identity (by omega)
  have h6 := opt_bytes (t := 0x42) h.identityPriv (by omega)
  unfold storedPendingExchange
  simp only [List.length_append]
  omega

omit C in
theorem pendingPreKey_size {p : PendingPreKeyS} (h : Short 33 p.baseKey) (hok : p.Ok) : (storedPendingPreKey p).length ≤ 52 := by
  have h0 := opt_num (t := 0x08) hok.preKeyId
  have h1 := opt_bytes (t := 0x12) h (by omega)
  have h2 : (opt (signedField 0x18) p.signedPreKeyId).length ≤ 11 := by
    refine opt_le fun i hi => ?_
    have := hok.signedPreKeyId i hi
    unfold signedField numField
    rw [List.length_cons]
    have := leb_upto (n := if 0 ≤ i then i.toNat else (2 ^ 64 + i).toNat) (f := 10) (by omega) (by split <;> omega)
    omega
  unfold storedPendingPreKey
  simp only [List.length_append]
  omega

omit C in
theorem state_size {s : SessionState} (h : SlimState s) (hok : s.Ok) (h5 : s.receiverChains.length ≤ 5)
    (hn : ∀ c ∈ s.receiverChains, c.messageKeys.length < 2 ^ 32) :
    90 * storedKeys s ≤ (storedState s).length ∧ (storedState s).length ≤ 1143 + 94 * storedKeys s := by
  have g1 := opt_num (t := 0x08) hok.sessionVersion
  have g2 := opt_bytes (t := 0x12) h.me (by omega)
  have g3 := opt_bytes (t := 0x1A) h.them (by omega)
  have g4 := opt_bytes (t := 0x22) h.root (by omega)
  have g5 := opt_num (t := 0x28) hok.previousCounter
  have g6 : (opt (fun c => bytesField 0x32 (storedChain c)) s.senderChain).length ≤ 118 := by
    refine opt_le fun c hc => ?_
    obtain ⟨h1, h2⟩ := h.sender c hc
    have := (chainField_size (t := 0x32) h1 (hok.senderChain c hc) (by rw [h2]; simp)).2
    rw [h2] at this
    simpa using this
  have g7 : (each (fun c => bytesField 0x3A (storedChain c)) s.receiverChains).length ≤
      118 * s.receiverChains.length + 94 * storedKeys s := by
    unfold storedKeys
    rw [← sum_affine]
    exact each_le fun c hc => (chainField_size (h.receivers c hc) (hok.receiverChains c hc) (hn c hc)).2
  have g7' : 90 * storedKeys s ≤ (each (fun c => bytesField 0x3A (storedChain c)) s.receiverChains).length := by
    unfold storedKeys
    have : (s.receiverChains.map fun c => 0 + 90 * c.messageKeys.length).sum =
        0 * s.receiverChains.length + 90 * (s.receiverChains.map fun c => c.messageKeys.length).sum :=
      sum_affine s.receiverChains (fun c => c.messageKeys.length) 0 90
    have h2 : (s.receiverChains.map fun c => 0 + 90 * c.messageKeys.length).sum ≤
        (each (fun c => bytesField 0x3A (storedChain c)) s.receiverChains).length :=
      each_ge fun c hc => by
        have := (chainField_size (t := 0x3A) (h.receivers c hc) (hok.receiverChains c hc) (hn c hc)).1
        omega
    omega
  have g8 : (opt (fun p => bytesField 0x42 (storedPendingExchange p)) s.pendingKeyExchange).length ≤ 216 := by
    refine opt_le fun p hp => ?_
    have h1 := pendingExchange_size (h.pending p hp) (hok.pendingKeyExchange p hp)
    have h2 := leb_upto (n := (storedPendingExchange p).length) (f := 2) (by omega) (by omega)
    rw [bytesField_length]
    omega
  have g9 : (opt (fun p => bytesField 0x4A (storedPendingPreKey p)) s.pendingPreKey).length ≤ 54 :=
    opt_le fun p hp => bytesField_small (pendingPreKey_size (h.announced p hp) (hok.pendingPreKey p hp)) (by omega)
  have g10 := opt_num (t := 0x50) hok.remoteRegistrationId
  have g11 := opt_num (t := 0x58) hok.localRegistrationId
  have g12 : (opt (boolField 0x60) s.needsRefresh).length ≤ 2 := opt_le fun b _ => Nat.le_refl _
  have g13 := opt_bytes (t := 0x6A) h.base (by omega)
  unfold storedState
  simp only [List.length_append]
  omega

omit C in
theorem storedKeys_lt {s : SessionState} (h5 : s.receiverChains.length ≤ 5)
    (hn : ∀ c ∈ s.receiverChains, c.messageKeys.length < 2 ^ 32) : storedKeys s ≤ 5 * 2 ^ 32 := by
  unfold storedKeys
  have key : ∀ l : List ChainS, (∀ c ∈ l, c.messageKeys.length < 2 ^ 32) → (l.map fun c => c.messageKeys.length).sum ≤ l.length * 2 ^ 32 := by
    intro l
    induction l with
    | nil => intro _; simp
    | cons a l ih =>
      intro h
      have h1 := h a (List.mem_cons_self ..)
      have h2 := ih fun b hb => h b (List.mem_cons_of_mem _ hb)
      simp only [List.map_cons, List.sum_cons, List.length_cons]
      omega
  exact Nat.le_trans (key _ hn) (Nat.mul_le_mul_right _ h5)

omit C in
theorem stateField_size {s : SessionState} {t : UInt8} (h : SlimState s) (hok : s.Ok) (h5 : s.receiverChains.length ≤ 5)
    (hn : ∀ c ∈ s.receiverChains, c.messageKeys.length < 2 ^ 32) :
    90 * storedKeys s ≤ (bytesField t (storedState s)).length ∧
    (bytesField t (storedState s)).length ≤ 1150 + 94 * storedKeys s := by
  obtain ⟨h1, h2⟩ := state_size h hok h5 hn
  have h3 := storedKeys_lt h5 hn
  have h4 := leb_upto (n := (storedState s).length) (f := 6) (by omega) (by omega)
  rw [bytesField_length]
  omega

omit C in
theorem record_size {r : SessionRecord} (h : r.All SlimState) (hok : r.Ok) (h40 : r.previousStates.length ≤ 40)
    (h5 : ∀ s ∈ states r, s.receiverChains.length ≤ 5 ∧ ∀ c ∈ s.receiverChains, c.messageKeys.length < 2 ^ 32) :
    90 * storedKeysOf r ≤ (storedRecord r).length ∧ (storedRecord r).length ≤ 47150 + 94 * storedKeysOf r ∧
    storedKeysOf r ≤ 205 * 2 ^ 32 := by
  have h1 := h5 r.sessionState (List.mem_cons_self ..)
  have ha := stateField_size (t := 0x0A) h.1 hok.1 h1.1 h1.2
  have hk := storedKeys_lt h1.1 h1.2
  have hb : ∀ s ∈ r.previousStates, _ := fun s hs =>
    stateField_size (t := 0x12) (h.2 s hs) (hok.2 s hs) (h5 s (List.mem_cons_of_mem _ hs)).1 (h5 s (List.mem_cons_of_mem _ hs)).2
  have hc : (each (fun s => bytesField 0x12 (storedState s)) r.previousStates).length ≤
      1150 * r.previousStates.length + 94 * (r.previousStates.map storedKeys).sum := by
    rw [← sum_affine]
    exact each_le fun s hs => (hb s hs).2
  have hd : 90 * (r.previousStates.map storedKeys).sum ≤ (each (fun s => bytesField 0x12 (storedState s)) r.previousStates).length := by
    have : (r.previousStates.map fun s => 0 + 90 * storedKeys s).sum =
        0 * r.previousStates.length + 90 * (r.previousStates.map storedKeys).sum := sum_affine r.previousStates storedKeys 0 90
    have h2 : (r.previousStates.map fun s => 0 + 90 * storedKeys s).sum ≤
        (each (fun s => bytesField 0x12 (storedState s)) r.previousStates).length :=
      each_ge fun s hs => by
        have := (hb s hs).1
        omega
    omega
  have he : ∀ l : List SessionState, (∀ s ∈ l, storedKeys s ≤ 5 * 2 ^ 32) → (l.map storedKeys).sum ≤ l.length * (5 * 2 ^ 32) := by
    intro l
    induction l with
    | nil => intro _; simp
    | cons a l ih =>
      intro h
      have h1 := h a (List.mem_cons_self ..)
      have h2 := ih fun b hb => h b (List.mem_cons_of_mem _ hb)
      simp only [List.map_cons, List.sum_cons, List.length_cons]
      omega
  have hf := he r.previousStates fun s hs =>
    storedKeys_lt (h5 s (List.mem_cons_of_mem _ hs)).1 (h5 s (List.mem_cons_of_mem _ hs)).2
  have hg : storedKeysOf r = storedKeys r.sessionState + (r.previousStates.map storedKeys).sum := rfl
  unfold storedRecord
  rw [List.length_append, hg]
  omega

/-- **C64.** The size of a stored session record, whatever the history: between 90 bytes for every key of a skipped message in
it and at most 47150 bytes more than 94 for each. -/
theorem C64_size (hC : C.Lawful) (w0 : World) (hw : w0.NoSessions) (hid : w0.identityKeyPair.pub.length = 32)
    (ss : List Step) (hs : ∀ x ∈ ss, Step.Sane x) (hz : ∀ c ∈ callsOf ss, Sized c) (a : Address) (r : SessionRecord)
    (h : (Step.after w0 ss).sessions a = some r) :
    90 * storedKeysOf r ≤ r.serialize.length ∧ r.serialize.length ≤ 47150 + 94 * storedKeysOf r := by
  have h1 := slim_steps hC w0 hw hid ss hs hz a r h
  have hok : r.Ok := steps_all stateOk_inv w0 hw ss a r h
  obtain ⟨h40, h5⟩ := C63_bounded hC w0 hw ss a r h
  obtain ⟨g1, g2, g3⟩ := record_size h1 hok h40 fun s hs => ⟨(h5 s hs).1, fun c hc => by
    have := (h5 s hs).2 c hc
    omega⟩
  rw [C62_session_bytes r hok (by omega)]
  exact ⟨g1, g2⟩

/-- **C64.** No stored session record is ever longer than 128 terabytes. -/
theorem C64_absolute (hC : C.Lawful) (w0 : World) (hw : w0.NoSessions) (hid : w0.identityKeyPair.pub.length = 32)
    (ss : List Step) (hs : ∀ x ∈ ss, Step.Sane x) (hz : ∀ c ∈ callsOf ss, Sized c) (a : Address) (r : SessionRecord)
    (h : (Step.after w0 ss).sessions a = some r) : r.serialize.length < 2 ^ 47 := by
  have h1 := slim_steps hC w0 hw hid ss hs hz a r h
  have hok : r.Ok := steps_all stateOk_inv w0 hw ss a r h
  obtain ⟨h40, h5⟩ := C63_bounded hC w0 hw ss a r h
  obtain ⟨g1, g2, g3⟩ := record_size h1 hok h40 fun s hs => ⟨(h5 s hs).1, fun c hc => by
    have := (h5 s hs).2 c hc
    omega⟩
  rw [C62_session_bytes r hok (by omega)]
  omega

theorem steps_keys (w0 : World) (hw : w0.NoSessions) (a : Address) (ss : List Step) :
    ((Step.after w0 ss).sessions a).elim 0 storedKeysOf ≤ 2000 * (callsOf ss).length := by
  have key : ∀ (ss : List Step) (w : World), ((Step.after w ss).sessions a).elim 0 storedKeysOf ≤
      (w.sessions a).elim 0 storedKeysOf + 2000 * (callsOf ss).length := by
    intro ss
    induction ss with
    | nil => intro w; exact Nat.le_refl _
    | cons x ss ih =>
      intro w
      refine Nat.le_trans (ih (x.next w)) ?_
      cases x with
      | app o =>
        have h : ((o.next w).sessions a).elim 0 storedKeysOf ≤ (w.sessions a).elim 0 storedKeysOf := by
          cases hr : (o.next w).sessions a with
          | none => exact Nat.zero_le _
          | some r => rw [op_record hr]; exact Nat.le_refl _
        exact Nat.add_le_add_right h _
      | call c =>
        have h : ((c.next w).sessions a).elim 0 storedKeysOf ≤ (w.sessions a).elim 0 storedKeysOf + 2000 := by
          cases hr : (c.next w).sessions a with
          | none => exact Nat.zero_le _
          | some r => exact C23_one_call w c a r hr
        show ((c.next w).sessions a).elim 0 storedKeysOf + 2000 * (callsOf ss).length ≤
          (w.sessions a).elim 0 storedKeysOf + 2000 * ((callsOf ss).length + 1)
        omega
  have h := key ss w0
  rw [hw a] at h
  simpa using h

/-- **C64.** Storage grows by at most 188000 bytes per call. -/
theorem C64_growth (hC : C.Lawful) (w0 : World) (hw : w0.NoSessions) (hid : w0.identityKeyPair.pub.length = 32)
    (ss : List Step) (hs : ∀ x ∈ ss, Step.Sane x) (hz : ∀ c ∈ callsOf ss, Sized c) (a : Address) (r : SessionRecord)
    (h : (Step.after w0 ss).sessions a = some r) : r.serialize.length ≤ 47150 + 188000 * (callsOf ss).length := by
  have h1 := (C64_size hC w0 hw hid ss hs hz a r h).2
  have h2 := steps_keys w0 hw a ss
  rw [h] at h2
  have h2 : storedKeysOf r ≤ _ := h2
  omega

omit C in
theorem callsOf_take (ss : List Step) : ∀ (k : Nat), ∀ c ∈ callsOf (ss.take k), c ∈ callsOf ss := by
  induction ss with
  | nil => intro k c hc; simp at hc; exact hc
  | cons x ss ih =>
    intro k c hc
    cases k with
    | zero => cases hc
    | succ k =>
      cases x with
      | app o => exact ih k c hc
      | call d =>
        rcases List.mem_cons.1 hc with rfl | hc
        · exact List.mem_cons_self ..
        · exact List.mem_cons_of_mem _ (ih k c hc)

/-- **C64.** So the size limit of `C63_bytes` is always met: stores that keep bytes behave like stores that keep records, in
every history. -/
theorem C64_bytes (hC : C.Lawful) (w : World) (hw : w.NoSessions) (hid : w.identityKeyPair.pub.length = 32) (hk : KeysMade w)
    (ss : List Step) (hs : ∀ x ∈ ss, Step.Sane x) (hz : ∀ c ∈ callsOf ss, Sized c) (hm : ∀ x ∈ ss, StoresMade x) :
    Step.repliesB w.toBytes ss = Step.replies w ss ∧ Step.afterB w.toBytes ss = (Step.after w ss).toBytes := by
  refine C63_bytes w hw hk ss hm fun k a r h => ?_
  have := C64_absolute hC w hw hid (ss.take k) (fun x hx => hs x (List.mem_of_mem_take hx))
    (fun c hc => hz c (callsOf_take ss k c hc)) a r h
  omega

omit C in
theorem le_sum_of_mem {l : List Nat} {n : Nat} (h : n ∈ l) : n ≤ l.sum := by
  induction l with
  | nil => cases h
  | cons a l ih =>
    rw [List.sum_cons]
    rcases List.mem_cons.1 h with rfl | h
    · omega
    · have := ih h; omega

omit C in
theorem callsOf_calls (cs : List Call) : callsOf (cs.map Step.call) = cs := by
  induction cs with
  | nil => rfl
  | cons c cs ih => show c :: callsOf (cs.map Step.call) = _; rw [ih]

theorem after_calls (w : World) (cs : List Call) : Step.after w (cs.map Step.call) = Call.after w cs := by
  unfold Step.after Call.after
  rw [List.foldl_map]
  rfl

omit C in
theorem sane_calls (cs : List Call) : ∀ x ∈ cs.map Step.call, Step.Sane x := by
  intro x hx
  obtain ⟨c, _, rfl⟩ := List.mem_map.1 hx
  trivial

/-- **C64.** The growth is real: a peer with a session can make the record with them 180000 bytes longer with every message,
as long as the counter lasts. -/
theorem C64_grows (hC : C.Lawful) (w0 : World) (hw : w0.NoSessions) (hid : w0.identityKeyPair.pub.length = 32) (a : Address)
    (key rid lid : ECPub) (hkl : key.length = 32) (hrl : rid.length = 32) (hll : lid.length = 32) (N : Nat)
    (cs : List Call) (hz : ∀ c ∈ cs, Sized c) (r : SessionRecord) (c : ChainS) (hr : (Call.after w0 cs).sessions a = some r)
    (hv : r.sessionState.sessionVersion = some 3) (hs : r.sessionState.senderChain ≠ none)
    (hc : recvChain r.sessionState key = some c) (hrid : r.sessionState.remoteIdentityPublic = some (5 :: rid))
    (hlid : r.sessionState.localIdentityPublic = some (5 :: lid)) (hb : position c + 2001 * N < 2 ^ 32) :
    ∃ (cs' : List Call) (r' : SessionRecord), cs'.length = N ∧
      (∀ call ∈ cs', ∃ m seed seeds, call = .decryptMsg a m seed seeds ∧ WhisperMessage.parse m.serialized = .ok m) ∧
      (Call.after w0 (cs ++ cs')).sessions a = some r' ∧ 180000 * N ≤ r'.serialize.length := by
  obtain ⟨cs', r', c', h1, h2, h3, h4, _, h5⟩ := C23_grows hC w0 hw a key rid lid hkl hrl hll N cs r c hr hv hs hc hrid hlid hb
  refine ⟨cs', r', h1, h2, h3, ?_⟩
  have h6 := (C64_size hC w0 hw hid ((cs ++ cs').map .call) (sane_calls _) (by
    rw [callsOf_calls]
    intro x hx
    rcases List.mem_append.1 hx with hx | hx
    · exact hz x hx
    · obtain ⟨_, _, _, rfl, _⟩ := h2 x hx
      trivial) a r' (by rw [after_calls]; exact h3)).1
  have h7 : c'.messageKeys.length ≤ storedKeysOf r' := by
    have g1 : c' ∈ r'.sessionState.receiverChains := List.mem_of_find?_eq_some h4
    have g2 : c'.messageKeys.length ≤ storedKeys r'.sessionState :=
      le_sum_of_mem (List.mem_map_of_mem (f := fun c : ChainS => c.messageKeys.length) g1)
    have g3 : storedKeysOf r' = storedKeys r'.sessionState + (r'.previousStates.map storedKeys).sum := rfl
    omega
  omega

end

/-! ## The hypotheses are met -/

section
attribute [local instance] toy
open Example Spec

/-- `C64_bytes`, `C64_size`, `C64_growth` and `C64_absolute` apply to Bob's history of C63. -/
example : Step.repliesB bob0.toBytes bobSteps = Step.replies bob0 bobSteps := by
  refine (C64_bytes toy_lawful bob0 (fun _ => rfl) rfl bob0_keysMade bobSteps bobSteps_sane (fun c hc => (bobSteps_calls c hc).1)
    ?_).1
  intro x hx
  simp only [bobSteps, List.mem_cons, List.not_mem_nil, or_false] at hx
  rcases hx with rfl | rfl | rfl | rfl | rfl | rfl | rfl | rfl
  · exact ⟨32, pair 32, by decide, by decide, by decide, by decide +kernel⟩
  all_goals trivial

/-- The record with Alice after five of his steps, and after her third message overtook the second. -/
example : ((Step.after bob0 (bobSteps.take 5)).sessions aliceAddr).map (fun r => (storedKeysOf r, r.serialize.length)) =
    some (0, 334) ∧
    ((Call.after bob0 bobCalls3).sessions aliceAddr).map (fun r => (storedKeysOf r, r.serialize.length)) = some (1, 425) := by
  decide +kernel

/-- `C64_grows` applies to Bob's session with Alice: 360 gigabytes. -/
example : ∃ (cs : List Call) (r : SessionRecord), (Call.after bob0 cs).sessions aliceAddr = some r ∧
    360000000000 ≤ r.serialize.length := by
  obtain ⟨h0, h1, h2, h3, h4, h5, h6, h7, h8⟩ := bob_onChain
  obtain ⟨cs', r', _, _, g1, g2⟩ := C64_grows toy_lawful bob0 h0 rfl aliceAddr firstPk.message.senderRatchetKey (key 1) (key 2)
    h8 rfl rfl 2000000 Example.bobCalls (by
      intro c hc
      simp only [Example.bobCalls, List.mem_cons, List.not_mem_nil, or_false] at hc
      subst hc
      trivial) bobRecord bobChain h1 h2 h3 h4 h5 h6 (by rw [h7]; decide)
  exact ⟨_, r', g1, g2⟩

end
end Axolotl
