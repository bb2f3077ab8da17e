import Verif.Spec.MessageSize
import Verif.Spec.GroupMemory
import Verif.Props.Size
import Verif.Props.GroupCalls

/-!
# C66: the length of what is sent
-/

namespace Axolotl
open Spec Wire

/-! ## Numbers -/

theorem log2_div (n : Nat) (h : 2 ≤ n) : Nat.log2 n = Nat.log2 (n / 2) + 1 := by
  rw [Nat.log2_def, if_pos h]

theorem log2_div_128 (n : Nat) (h : 128 ≤ n) : Nat.log2 n = Nat.log2 (n / 128) + 7 := by
  rw [log2_div n (by omega), log2_div (n / 2) (by omega), log2_div (n / 2 / 2) (by omega), log2_div (n / 2 / 2 / 2) (by omega),
    log2_div (n / 2 / 2 / 2 / 2) (by omega), log2_div (n / 2 / 2 / 2 / 2 / 2) (by omega),
    log2_div (n / 2 / 2 / 2 / 2 / 2 / 2) (by omega)]
  have : n / 2 / 2 / 2 / 2 / 2 / 2 / 2 = n / 128 := by omega
  rw [this]

theorem log2_small (n : Nat) (h : n < 128) : Nat.log2 n < 7 := by
  by_cases h0 : n = 0
  · subst h0; decide
  · exact (Nat.log2_lt h0).2 h

theorem leb_numberSize (n : Nat) : (leb n).length = numberSize n := by
  induction n using Nat.strongRecOn with
  | ind n ih =>
    unfold numberSize
    rw [leb]
    split
    · rename_i h
      have := log2_small n h
      simp only [List.length_cons, List.length_nil]
      omega
    · rename_i h
      rw [List.length_cons, ih (n / 128) (by omega)]
      unfold numberSize
      rw [log2_div_128 n (by omega)]
      omega

theorem numberSize_le {n k : Nat} (h : n < 2 ^ k) : numberSize n ≤ (k - 1) / 7 + 1 := by
  unfold numberSize
  have : Nat.log2 n ≤ k - 1 := by
    by_cases h0 : n = 0
    · subst h0
      have : Nat.log2 0 = 0 := by decide
      omega
    · have := (Nat.log2_lt h0).2 h
      omega
  have := Nat.div_le_div_right (c := 7) this
  omega

theorem numberSize_pos (n : Nat) : 1 ≤ numberSize n := by
  unfold numberSize
  omega

theorem numberSize_mono {m n : Nat} (h : m ≤ n) : numberSize m ≤ numberSize n := by
  by_cases h0 : m = 0
  · subst h0
    have : numberSize 0 = 1 := by decide
    have := numberSize_pos n
    omega
  · unfold numberSize
    have h1 : 2 ^ Nat.log2 m ≤ m := (Nat.le_log2 h0).1 (Nat.le_refl _)
    have h2 : Nat.log2 m ≤ Nat.log2 n := (Nat.le_log2 (by omega)).2 (by omega)
    have := Nat.div_le_div_right (c := 7) h2
    omega

theorem bytesFieldSize_lt {m n : Nat} (h : m < n) : bytesFieldSize m < bytesFieldSize n := by
  have := numberSize_mono (Nat.le_of_lt h)
  unfold bytesFieldSize
  omega

theorem cipherSize_eq {m n : Nat} : bytesFieldSize (cipherSize m) = bytesFieldSize (cipherSize n) ↔ m / 16 = n / 16 := by
  constructor
  · intro h
    have : cipherSize m = cipherSize n := by
      rcases Nat.lt_trichotomy (cipherSize m) (cipherSize n) with h1 | h1 | h1
      · have := bytesFieldSize_lt h1; omega
      · exact h1
      · have := bytesFieldSize_lt h1; omega
    unfold cipherSize at this
    omega
  · intro h
    unfold cipherSize
    rw [h]

theorem numField_size (t : UInt8) (n : Nat) : (numField t n).length = numberFieldSize n := by
  unfold numField numberFieldSize
  rw [List.length_cons, leb_numberSize]
  omega

theorem bytesField_size (t : UInt8) (b : Bytes) : (bytesField t b).length = bytesFieldSize b.length := by
  rw [bytesField_length, leb_numberSize]
  rfl

theorem keyField_size (t : UInt8) {k : ECPub} (h : k.length = 32) : (bytesField t (5 :: k)).length = keyFieldSize := by
  rw [bytesField_size, List.length_cons, h]
  decide

theorem padded_size (p : Bytes) : (padded p).length = cipherSize p.length := by
  unfold padded cipherSize
  rw [List.length_append, List.length_replicate]
  omega

theorem sessionMessage_size {e : ECPub} {n pc : Nat} {ct : Bytes} (he : e.length = 32) :
    (sessionMessage e n pc ct).length =
      1 + keyFieldSize + numberFieldSize n + numberFieldSize pc + bytesFieldSize ct.length := by
  unfold sessionMessage
  simp only [List.length_cons, List.length_append, keyField_size _ he, numField_size, bytesField_size]
  omega

theorem preKeyMessage_size {pid : Option Nat} {b i : ECPub} {inner : Bytes} {reg sid : Nat} (hb : b.length = 32) (hi : i.length = 32) :
    (preKeyMessage pid b i inner reg sid).length = preKeySize pid reg sid inner.length := by
  unfold preKeyMessage preKeySize
  simp only [List.length_cons, List.length_append, keyField_size _ hb, keyField_size _ hi, numField_size, bytesField_size]
  cases pid with
  | none => simp only [List.length_nil]; omega
  | some i => simp only [numField_size]; omega

theorem groupMessage_size {id it : Nat} {ct : Bytes} :
    (groupMessage id it ct).length = 1 + numberFieldSize id + numberFieldSize it + bytesFieldSize ct.length := by
  unfold groupMessage
  simp only [List.length_cons, List.length_append, numField_size, bytesField_size]
  omega

theorem distributionMessage_size {id it : Nat} {ck : Bytes} {k : ECPub} (hck : ck.length = 32) (hk : k.length = 32) :
    (distributionMessage id it ck k).length = distributionSize id it := by
  unfold distributionMessage distributionSize
  simp only [List.length_cons, List.length_append, numField_size, bytesField_size, keyField_size _ hk, hck]
  omega

theorem exchangeMessage_size {seq flags : Nat} {b r i : ECPub} {sig : Bytes} (hb : b.length = 32) (hr : r.length = 32)
    (hi : i.length = 32) (hs : sig.length = 64) : (keyExchangeMessage seq flags b r i sig).length = exchangeSize seq flags := by
  unfold keyExchangeMessage exchangeSize
  simp only [List.length_cons, List.length_append, numField_size, bytesField_size, keyField_size _ hb, keyField_size _ hr,
    keyField_size _ hi, hs]
  omega

section
variable [C : Crypto]

/-! ## Our own keys have 32 bytes -/

omit C in
/-- A key of 32 bytes behind its type byte, if anything is there. -/
def FullKey (b : Option Bytes) : Prop := ∀ x, b = some x → x.length = 33

omit C in
theorem fullKey_some {k : ECPub} (h : k.length = 32) : FullKey (some (5 :: k)) := by
  intro x hx
  rw [← Option.some.inj hx, List.length_cons, h]

omit C in
theorem fullKey_none : FullKey none := by
  intro x hx
  cases hx

omit C in
theorem fullKey_keyOf {b : Option Bytes} {k : ECPub} (h : KeyOf b k) (hb : FullKey b) : k.length = 32 := by
  obtain ⟨x, h1, rfl⟩ := h
  have := hb _ h1
  rw [List.length_cons] at this
  rw [List.length_take]
  omega

/-- The keys in a state that we made ourselves. -/
structure OwnKeys (s : SessionState) : Prop where
  me : FullKey s.localIdentityPublic
  ratchet : ∀ c, s.senderChain = some c → FullKey c.senderRatchetKey
  pending : ∀ p, s.pendingKeyExchange = some p →
    FullKey p.localIdentityKey ∧ FullKey p.localBaseKey ∧ FullKey p.localRatchetKey
  announced : ∀ p, s.pendingPreKey = some p → FullKey p.baseKey

theorem own_opened (hC : C.Lawful) {s s1 : SessionState} {eph : ECPub} {seed : Bytes} (h : Opened s eph seed s1)
    (hs : OwnKeys s) : OwnKeys s1 := by
  cases h with
  | known _ _ => exact hs
  | @ratchet c d1 d2 _ hc h1 h2 =>
    obtain ⟨g1, g2⟩ := hC.dh_size _ _ _ h2
    refine ⟨hs.me, ?_, hs.pending, hs.announced⟩
    intro c' hc'
    rw [← Option.some.inj hc']
    exact fullKey_some (drawn_len hC g1)

theorem own_accepts (hC : C.Lawful) {s s' : SessionState} {m : WhisperMessage} {seed pt : Bytes}
    (h : Accepts s m seed pt s') (hs : OwnKeys s) : OwnKeys s' := by
  cases h with
  | intro _ _ hop _ _ _ _ _ _ _ _ _ =>
    have h1 := own_opened hC hop hs
    exact ⟨h1.me, h1.ratchet, h1.pending, by intro p hp; cases hp⟩

theorem own_record (hC : C.Lawful) {r r' : SessionRecord} {m : WhisperMessage} {seed pt : Bytes} {seeds : Nat → Bytes}
    (h : RecordVerdict r m seed seeds (.ok (pt, r'))) (hr : r.All OwnKeys) : r'.All OwnKeys := by
  cases h with
  | current hv =>
    cases hv with
    | plaintext ha => exact ⟨own_accepts hC ha hr.1, hr.2⟩
  | archived _ _ hk hv =>
    cases hv with
    | plaintext ha =>
      refine ⟨own_accepts hC ha (hr.2 _ (List.mem_of_getElem? hk)), ?_⟩
      intro s hs
      rcases List.mem_cons.1 hs with rfl | hs
      · exact hr.1
      · exact hr.2 s (List.mem_of_mem_eraseIdx hs)

theorem own_sends {s s' : SessionState} {pt : Bytes} {c : Ciphertext} (h : Sends s pt (.ok (c, s')))
    (hs : OwnKeys s) : OwnKeys s' := by
  have key : ∀ k, s.senderChain = some k → OwnKeys (afterSending s k) := by
    intro k hk
    refine ⟨hs.me, ?_, hs.pending, hs.announced⟩
    intro c' hc'
    rw [← Option.some.inj hc']
    exact hs.ratchet k hk
  cases h with
  | message h _ _ _ _ _ _ => exact key _ h
  | announcement h _ _ _ _ _ _ _ _ => exact key _ h

theorem own_initiator (hC : C.Lawful) {me them rk : ECPub} {seed secret okm : Bytes} (hme : me.length = 32)
    (hd : C.dh (C.genPriv seed) rk = some secret) : OwnKeys (initiatorState me them okm rk seed secret) := by
  obtain ⟨g1, _⟩ := hC.dh_size _ _ _ hd
  refine ⟨fullKey_some hme, ?_, (by intro p hp; cases hp), (by intro p hp; cases hp)⟩
  intro c hc
  rw [← Option.some.inj hc]
  exact fullKey_some (drawn_len hC g1)

omit C in
theorem own_answerer {me them : ECPub} {okm : Bytes} {k : KeyPair} (hme : me.length = 32) (hpub : k.pub.length = 32) :
    OwnKeys (answererState me them okm k) := by
  refine ⟨fullKey_some hme, ?_, (by intro p hp; cases hp), (by intro p hp; cases hp)⟩
  intro c hc
  rw [← Option.some.inj hc]
  exact fullKey_some hpub

omit C in
theorem own_new {old : Option SessionRecord} {s : SessionState} (ho : ∀ r, old = some r → r.All OwnKeys) (hs : OwnKeys s) :
    (newRecord old s).All OwnKeys := by
  refine ⟨hs, ?_⟩
  intro x hx
  cases old with
  | none => cases hx
  | some r => exact all_states (ho r rfl) (List.mem_of_mem_take hx)

theorem own_exchanged (hC : C.Lawful) {identity base ratchet : KeyPair} {m : KeyExchangeMessage} {seed : Bytes}
    {s : SessionState} (hi : identity.pub.length = 32) (hr : ratchet.pub.length = 32)
    (h : FromExchange identity base ratchet m seed (.ok s)) : OwnKeys s := by
  cases h with
  | session _ _ h =>
    cases h with
    | initiator _ _ h2 => exact own_initiator hC hi h2
    | answerer _ _ => exact own_answerer hi hr

omit C in
theorem own_pendingOf {w : World} {a : Address} {p : PendingKeyExchangeS}
    (hw : ∀ a r, w.sessions a = some r → r.All OwnKeys) (h : Spec.pendingOf (w.sessions a) = some p) :
    FullKey p.localIdentityKey ∧ FullKey p.localBaseKey ∧ FullKey p.localRatchetKey := by
  unfold Spec.pendingOf at h
  cases hr : w.sessions a with
  | none => rw [hr] at h; cases h
  | some r => rw [hr] at h; exact (hw a r hr).1.pending p h

omit C in
theorem own_pendingKeys {w : World} {a : Address} {p : PendingKeyExchangeS} {identity base ratchet : KeyPair}
    (hw : ∀ a r, w.sessions a = some r → r.All OwnKeys) (h : Spec.pendingOf (w.sessions a) = some p)
    (hk : PendingKeys p identity base ratchet) :
    identity.pub.length = 32 ∧ base.pub.length = 32 ∧ ratchet.pub.length = 32 := by
  obtain ⟨h1, h2, h3⟩ := own_pendingOf hw h
  exact ⟨fullKey_keyOf hk.identity.1 h1, fullKey_keyOf hk.base.1 h2, fullKey_keyOf hk.ratchet.1 h3⟩

theorem own_answerKeys (hC : C.Lawful) {w : World} {a : Address} {rnd : SessionBuilder.InitiateRand}
    {identity base ratchet : KeyPair} {flags : Nat} (hid : w.identityKeyPair.pub.length = 32)
    (hb : rnd.baseSeed.length = 32) (hr : rnd.ratchetSeed.length = 32) (hw : ∀ a r, w.sessions a = some r → r.All OwnKeys)
    (h : AnswerKeys w a rnd identity base ratchet flags) :
    identity.pub.length = 32 ∧ base.pub.length = 32 ∧ ratchet.pub.length = 32 := by
  cases h with
  | new _ => exact ⟨hid, drawn_len hC (hC.genPriv_len _ hb), drawn_len hC (hC.genPriv_len _ hr)⟩
  | pending h1 h2 => exact own_pendingKeys hw h1 h2

omit C in
theorem signedPreKey_full {id : Int} {ts : Nat} {k : KeyPair} {sig : Bytes} {p : SignedPreKeyRecord} (hk : k.pub.length = 32)
    (h : SignedPreKeyRecord.mk' id ts k sig = .ok p) : FullKey p.publicKey := by
  unfold SignedPreKeyRecord.mk' at h
  obtain ⟨_, _, h⟩ := bind_eq_ok.1 h
  split at h
  · rw [← Except.ok.inj h]
    exact fullKey_some hk
  · cases h

theorem own_does (hC : C.Lawful) {w : World} (hid : w.identityKeyPair.pub.length = 32) (hkm : KeysMade w)
    (hw : ∀ a r, w.sessions a = some r → r.All OwnKeys) {c : Call} (hc : Sized c) {o : Outcome Reply} (h : Does w c o)
    {a : Address} {r' : SessionRecord} (hm : .session a r' ∈ o.writes) : r'.All OwnKeys := by
  have hnew : ∀ b s, OwnKeys s → (newRecord (w.sessions b) s).All OwnKeys :=
    fun b s hs => own_new (fun r hr => hw b r hr) hs
  have hask : ∀ b n baseSeed ratchetSeed, baseSeed.length = 32 → ratchetSeed.length = 32 →
      (withPending w b n baseSeed ratchetSeed).All OwnKeys := by
    intro b n bs rs h1 h2
    have g3 := drawn_len hC (hC.genPriv_len _ h1)
    have g4 := drawn_len hC (hC.genPriv_len _ h2)
    unfold withPending
    cases hr : w.sessions b with
    | none =>
      refine ⟨⟨fullKey_none, (by intro c hc; cases hc), ?_, (by intro c hc; cases hc)⟩, by intro s hs; cases hs⟩
      intro p hp'
      rw [← Option.some.inj hp']
      exact ⟨fullKey_some hid, fullKey_some g3, fullKey_some g4⟩
    | some r =>
      have hs := (hw b r hr).1
      refine ⟨⟨hs.me, hs.ratchet, ?_, hs.announced⟩, (hw b r hr).2⟩
      intro p hp'
      rw [← Option.some.inj hp']
      exact ⟨fullKey_some hid, fullKey_some g3, fullKey_some g4⟩
  cases h with
  | encrypt h1 h2 =>
    simp only [List.mem_singleton] at hm
    injection hm with e1 e2
    subst e1; subst e2
    exact ⟨own_sends h2 (hw _ _ h1).1, (hw _ _ h1).2⟩
  | read h1 h2 =>
    simp only [List.mem_singleton] at hm
    injection hm with e1 e2
    subst e1; subst e2
    exact own_record hC h2 ⟨(hw _ _ h1).1, (hw _ _ h1).2⟩
  | preKeyAgain _ h1 _ h2 =>
    simp at hm
    obtain ⟨rfl, rfl⟩ := hm
    exact own_record hC h2 ⟨(hw _ _ h1).1, (hw _ _ h1).2⟩
  | @preKeyNew b m seed seeds s r2 pt _ _ h1 h2 =>
    have : r' = r2 := by
      cases hx : consumedId m.preKeyId <;> simp [hx] at hm <;> exact hm.2
    subst this
    refine own_record hC h2 (hnew _ _ ?_)
    cases h1 with
    | @session _ _ _ okm hspk hp _ _ _ _ =>
      obtain ⟨id, ts, k, sig, _, _, hk, _, _, hmk⟩ := hkm.signedPreKeys _ _ hspk
      have hs := own_answerer (me := w.identityKeyPair.pub) (them := m.identityKey) (okm := okm) hid
        (fullKey_keyOf hp.1 (signedPreKey_full hk hmk))
      exact ⟨hs.me, hs.ratchet, hs.pending, hs.announced⟩
  | @bundle b bd baseSeed ratchetSeed s _ h1 =>
    simp at hm
    obtain ⟨rfl, rfl⟩ := hm
    refine hnew _ _ ?_
    cases h1 with
    | @session _ okm _ _ _ hm' hd _ _ _ _ _ =>
      obtain ⟨_, g2, _⟩ := setup_okm hC hm'
      have hs := own_initiator hC (me := w.identityKeyPair.pub) (them := bd.identityKey) (okm := okm) hid hd
      refine ⟨hs.me, hs.ratchet, hs.pending, ?_⟩
      intro p hp
      rw [← Option.some.inj hp]
      exact fullKey_some (drawn_len hC g2)
  | @request b m rnd o' _ _ h1 =>
    have hm : .session a r' ∈ o'.writes := hm
    cases h1 with
    | badSignature | unverifiable | noSession => cases hm
    | noReply _ hk hf _ =>
      simp at hm
      obtain ⟨rfl, rfl⟩ := hm
      obtain ⟨g1, _, g3⟩ := own_answerKeys hC hid hc.1 hc.2 hw hk
      exact hnew _ _ (own_exchanged hC g1 g3 hf)
    | reply _ hk hf _ =>
      simp at hm
      obtain ⟨rfl, rfl⟩ := hm
      obtain ⟨g1, _, g3⟩ := own_answerKeys hC hid hc.1 hc.2 hw hk
      exact hnew _ _ (own_exchanged hC g1 g3 hf)
  | @response b m rnd o' _ _ h1 =>
    have hm : .session a r' ∈ o'.writes := hm
    cases h1 with
    | stale | crossing | noSession | badSignature | unverifiable => cases hm
    | done ha hk hf _ =>
      simp at hm
      obtain ⟨rfl, rfl⟩ := hm
      obtain ⟨g1, _, g3⟩ := own_pendingKeys hw ha.1 hk
      exact hnew _ _ (own_exchanged hC g1 g3 hf)
  | ask h1 _ =>
    simp at hm
    obtain ⟨rfl, rfl⟩ := hm
    exact hask _ _ _ _ hc.1 hc.2
  | askUnsendable h1 _ _ =>
    simp at hm
    obtain ⟨rfl, rfl⟩ := hm
    exact hask _ _ _ _ hc.1 hc.2
  | encryptNothing | encryptFails | readNothing | readFails | preKeyUntrusted | preKeyNoSession | bundleUntrusted
  | bundleFails | exchangeUntrusted | askFails => cases hm
  | preKeyAgainFails | preKeyNewFails => simp at hm

theorem own_step (hC : C.Lawful) {w : World} (hr : Reached w) (hkm : KeysMade w)
    (hw : ∀ a r, w.sessions a = some r → r.All OwnKeys)
    (x : Step) (hx : ∀ c, x = .call c → Sized c) : ∀ a r, (x.next w).sessions a = some r → r.All OwnKeys := by
  intro a r h
  cases x with
  | app o => exact hw a r (op_record h)
  | call c =>
    have h : (w.applyAll (c.run w).writes).sessions a = some r := h
    rcases applyAll_sessions (ws := (c.run w).writes) (w := w) (a := a) with h1 | ⟨r', hm, h1⟩
    · rw [h1] at h; exact hw a r h
    · rw [h1] at h
      obtain rfl := Option.some.inj h
      exact own_does hC hr.identity hkm hw (hx c rfl) ((reached_exact hC hr c (hx c rfl) _).2 rfl) hm

theorem keysMade_steps (ss : List Step) : ∀ (w : World), KeysMade w → (∀ x ∈ ss, StoresMade x) → KeysMade (Step.after w ss) := by
  induction ss with
  | nil => intro w h _; exact h
  | cons x ss ih =>
    intro w h hm
    refine ih (x.next w) ?_ fun y hy => hm y (List.mem_cons_of_mem _ hy)
    cases x with
    | call c => exact keysMade_next h c
    | app o => exact keysMade_op h (hm _ (List.mem_cons_self ..))

/-- A history: no sessions at first, an identity of 32 bytes, prekeys made by the constructors, calls of sensible sizes. -/
structure Ordinary (w0 : World) (ss : List Step) : Prop where
  start : w0.NoSessions
  identity : w0.identityKeyPair.pub.length = 32
  made : KeysMade w0
  sane : ∀ x ∈ ss, Step.Sane x
  sized : ∀ c ∈ callsOf ss, Sized c
  stores : ∀ x ∈ ss, StoresMade x

theorem own_steps (hC : C.Lawful) {w0 : World} {ss : List Step} (ho : Ordinary w0 ss) :
    ∀ a r, (Step.after w0 ss).sessions a = some r → r.All OwnKeys := by
  have key : ∀ n, ∀ a r, (Step.after w0 (ss.take n)).sessions a = some r → r.All OwnKeys := by
    intro n
    induction n with
    | zero =>
      intro a r h
      have h : w0.sessions a = some r := h
      rw [ho.start a] at h
      cases h
    | succ n ih =>
      cases hx : ss[n]? with
      | none =>
        have hl : ss.length ≤ n := by simpa using hx
        rw [List.take_of_length_le (by omega)]
        rw [List.take_of_length_le (by omega)] at ih
        exact ih
      | some x =>
        have ht : ss.take (n + 1) = ss.take n ++ [x] := by rw [List.take_add_one, hx]; rfl
        have hn : Step.after w0 (ss.take (n + 1)) = x.next (Step.after w0 (ss.take n)) := by
          rw [ht]; unfold Step.after; rw [List.foldl_append]; rfl
        rw [hn]
        have hmem := List.mem_of_getElem? hx
        refine own_step hC (steps_reached hC w0 ho.start ho.identity _ fun y hy => ho.sane y (List.mem_of_mem_take hy))
          (keysMade_steps _ w0 ho.made fun y hy => ho.stores y (List.mem_of_mem_take hy)) ih x ?_
        intro c hc
        subst hc
        exact ho.sized c (callsOf_mem hmem)
  have := key ss.length
  rw [List.take_length] at this
  exact this

/-! ## Session messages -/

theorem encrypt_does (hC : C.Lawful) {w0 : World} {ss : List Step} (ho : Ordinary w0 ss) {a : Address} {pt : Bytes} {c : Ciphertext}
    (hpt : pt.length < 2 ^ 62) (h : (SessionCipher.encrypt (Step.after w0 ss) a pt).result = .ok c) :
    ∃ r s', (Step.after w0 ss).sessions a = some r ∧ Sends r.sessionState pt (.ok (c, s')) := by
  have hr := steps_reached hC w0 ho.start ho.identity ss ho.sane
  have hd := (reached_exact hC hr (.encrypt a pt) hpt _).2 rfl
  have hres : (Call.run (Step.after w0 ss) (.encrypt a pt)).result = .ok (.ciphertext c) := by
    unfold Call.run Call.mapOutcome
    simp only [h]
  generalize Call.run (Step.after w0 ss) (.encrypt a pt) = o at hd hres
  cases hd with
  | encryptNothing _ => cases hres
  | encryptFails _ _ => cases hres
  | encrypt h1 h2 =>
    injection hres with h3
    injection h3 with h3
    subst h3
    exact ⟨_, _, h1, h2⟩

theorem sentMessage_size (hC : C.Lawful) {s : SessionS} {e me you : ECPub} {pt ct : Bytes} {k iv : Bytes} (he : e.length = 32)
    (hct : CbcEncryption k iv pt ct) :
    (sentMessage s e me you ct).serialized.length = sessionSize (sendCounter s) (s.previousCounter.getD 0) pt.length := by
  unfold sentMessage sessionSize
  simp only [List.length_append, List.length_take, hC.hmac_len, sessionMessage_size he]
  rw [hct.length, padded_size]
  omega

/-- **C66.** In every history, the length of a message that `encrypt` returns: a function of the length of the plaintext and
of the numbers in the message, and of nothing else. -/
theorem C66_encrypt (hC : C.Lawful) (w0 : World) (ss : List Step) (ho : Ordinary w0 ss) (a : Address) (pt : Bytes) (c : Ciphertext)
    (hpt : pt.length < 2 ^ 62) (h : (SessionCipher.encrypt (Step.after w0 ss) a pt).result = .ok c) :
    ∃ r, (Step.after w0 ss).sessions a = some r ∧
      let s := r.sessionState
      let message := sessionSize (sendCounter s) (s.previousCounter.getD 0) pt.length
      match s.pendingPreKey with
      | none => c.serialize.length = message
      | some p => c.serialize.length =
          preKeySize p.preKeyId (s.localRegistrationId.getD 0) (p.signedPreKeyId.getD 0).toNat message := by
  obtain ⟨r, s', h1, h2⟩ := encrypt_does hC ho hpt h
  have hown := (own_steps hC ho a r h1).1
  refine ⟨r, h1, ?_⟩
  cases h2 with
  | message g1 g2 g3 g4 g5 g6 g7 =>
    simp only [g3]
    exact sentMessage_size hC (fullKey_keyOf g4 (hown.ratchet _ g1)) g7
  | announcement g1 g2 g3 g4 g5 g6 g7 g8 g9 =>
    simp only [g3]
    show (preKeyMessage _ _ _ _ _ _).length = _
    rw [preKeyMessage_size (fullKey_keyOf g5 (hown.announced _ g3)) (fullKey_keyOf g7 hown.me),
      sentMessage_size hC (fullKey_keyOf g6 (hown.ratchet _ g1)) g9, g4]
    rfl

omit C in
theorem preKeySize_eq {pid : Option Nat} {reg sid m n : Nat} : preKeySize pid reg sid m = preKeySize pid reg sid n ↔ m = n := by
  constructor
  · intro h
    unfold preKeySize at h
    rcases Nat.lt_trichotomy m n with h1 | h1 | h1
    · have := bytesFieldSize_lt h1; omega
    · exact h1
    · have := bytesFieldSize_lt h1; omega
  · rintro rfl; rfl

omit C in
theorem sessionSize_eq {n pc m k : Nat} : sessionSize n pc m = sessionSize n pc k ↔ m / 16 = k / 16 := by
  rw [← cipherSize_eq]
  unfold sessionSize
  omega

/-- **C66.** What the length gives away about the plaintext is the number of whole 16-byte blocks in it, no more and no less. -/
theorem C66_reveals (hC : C.Lawful) (w0 : World) (ss : List Step) (ho : Ordinary w0 ss) (a : Address) (pt pt' : Bytes)
    (c c' : Ciphertext) (hpt : pt.length < 2 ^ 62) (hpt' : pt'.length < 2 ^ 62)
    (h : (SessionCipher.encrypt (Step.after w0 ss) a pt).result = .ok c)
    (h' : (SessionCipher.encrypt (Step.after w0 ss) a pt').result = .ok c') :
    c.serialize.length = c'.serialize.length ↔ pt.length / 16 = pt'.length / 16 := by
  obtain ⟨r, h1, h2⟩ := C66_encrypt hC w0 ss ho a pt c hpt h
  obtain ⟨r', h1', h2'⟩ := C66_encrypt hC w0 ss ho a pt' c' hpt' h'
  obtain rfl := Option.some.inj (h1.symm.trans h1')
  cases hp : r.sessionState.pendingPreKey with
  | none =>
    simp only [hp] at h2 h2'
    rw [h2, h2', sessionSize_eq]
  | some p =>
    simp only [hp] at h2 h2'
    rw [h2, h2', preKeySize_eq, sessionSize_eq]

omit C in
theorem sessionSize_bounds (n pc m : Nat) (hn : n < 2 ^ 32) (hp : pc < 2 ^ 32) :
    m + 51 + (15 - m % 16) ≤ sessionSize n pc m ∧ sessionSize n pc m ≤ m + 58 + (15 - m % 16) + numberSize (cipherSize m) := by
  have h1 := numberSize_pos n
  have h2 := numberSize_pos pc
  have h3 := numberSize_pos (cipherSize m)
  have h4 := numberSize_le hn
  have h5 := numberSize_le hp
  have h6 : cipherSize m = m + 1 + (15 - m % 16) := by unfold cipherSize; omega
  unfold sessionSize keyFieldSize numberFieldSize bytesFieldSize
  rw [h6] at h3 ⊢
  omega

omit C in
theorem preKeySize_ge (pid : Option Nat) (reg sid n : Nat) : n + 77 ≤ preKeySize pid reg sid n := by
  have h1 := numberSize_pos reg
  have h2 := numberSize_pos sid
  have h3 := numberSize_pos n
  unfold preKeySize bytesFieldSize numberFieldSize keyFieldSize
  omega

theorem encrypt_sizes (hC : C.Lawful) {w0 : World} {ss : List Step} (ho : Ordinary w0 ss) {a : Address} {pt : Bytes} {c : Ciphertext}
    (hpt : pt.length < 2 ^ 62) (h : (SessionCipher.encrypt (Step.after w0 ss) a pt).result = .ok c) :
    ∃ n pc, n < 2 ^ 32 ∧ pc < 2 ^ 32 ∧ sessionSize n pc pt.length ≤ c.serialize.length ∧
      (c.getType = 2 → c.serialize.length = sessionSize n pc pt.length) := by
  obtain ⟨r, s', h1, h2⟩ := encrypt_does hC ho hpt h
  have hown := (own_steps hC ho a r h1).1
  have hok := (steps_all stateOk_inv w0 ho.start ss a r h1).1
  have hpc : r.sessionState.previousCounter.getD 0 < 2 ^ 32 := by
    cases hx : r.sessionState.previousCounter with
    | none => simp
    | some x => exact hok.previousCounter x hx
  cases h2 with
  | @message _ _ me you _ g1 g2 g3 g4 g5 g6 g7 =>
    have := sentMessage_size (s := r.sessionState) hC (me := me) (you := you) (fullKey_keyOf g4 (hown.ratchet _ g1)) g7
    exact ⟨_, _, by omega, hpc, Nat.le_of_eq this.symm, fun _ => this⟩
  | announcement g1 g2 g3 g4 g5 g6 g7 g8 g9 =>
    refine ⟨sendCounter r.sessionState, _, by omega, hpc, ?_, fun h => by cases h⟩
    show _ ≤ (preKeyMessage _ _ _ _ _ _).length
    rw [preKeyMessage_size (fullKey_keyOf g5 (hown.announced _ g3)) (fullKey_keyOf g7 hown.me),
      sentMessage_size hC (fullKey_keyOf g6 (hown.ratchet _ g1)) g9]
    exact Nat.le_trans (Nat.le_add_right _ 77) (preKeySize_ge _ _ _ _)

/-- **C66.** A session message is at least 51 bytes longer than its plaintext, and with up to a megabyte of plaintext at most
76 bytes. -/
theorem C66_overhead (hC : C.Lawful) (w0 : World) (ss : List Step) (ho : Ordinary w0 ss) (a : Address) (pt : Bytes)
    (c : Ciphertext) (hpt : pt.length < 2 ^ 62) (h : (SessionCipher.encrypt (Step.after w0 ss) a pt).result = .ok c) :
    pt.length + 51 ≤ c.serialize.length ∧
      (c.getType = 2 → pt.length ≤ 2 ^ 20 → c.serialize.length ≤ pt.length + 76) := by
  obtain ⟨n, pc, h1, h2, h3, h4⟩ := encrypt_sizes hC ho hpt h
  obtain ⟨h5, h6⟩ := sessionSize_bounds n pc pt.length h1 h2
  refine ⟨by omega, fun ht hl => ?_⟩
  rw [h4 ht]
  have h7 : numberSize (cipherSize pt.length) ≤ 3 := numberSize_le (k := 21) (by unfold cipherSize; omega)
  omega

/-- **C66.** The constant that the library gives for the worst case is too small for thirteen of sixteen lengths of
plaintext, in every session. -/
theorem C66_overhead_false (hC : C.Lawful) (w0 : World) (ss : List Step) (ho : Ordinary w0 ss) (a : Address) (pt : Bytes)
    (c : Ciphertext) (hpt : pt.length < 2 ^ 62) (hl : pt.length % 16 ≤ 12)
    (h : (SessionCipher.encrypt (Step.after w0 ss) a pt).result = .ok c) :
    pt.length + CiphertextMessage.ENCRYPTED_MESSAGE_OVERHEAD < c.serialize.length := by
  obtain ⟨n, pc, h1, h2, h3, _⟩ := encrypt_sizes hC ho hpt h
  have h5 := (sessionSize_bounds n pc pt.length h1 h2).1
  show pt.length + 53 < _
  omega

/-! ## Key exchange messages -/

/-- **C66.** The length of a key exchange request. -/
theorem C66_request (hC : C.Lawful) (w : World) (a : Address) (rnd : Nat) (baseSeed ratchetSeed sigRand : Bytes)
    (hb : baseSeed.length = 32) (hr : ratchetSeed.length = 32) (hi : w.identityKeyPair.pub.length = 32) (m : KeyExchangeMessage)
    (h : (SessionBuilder.processInitKeyExchangeMessage w a rnd baseSeed ratchetSeed sigRand).result = .ok m) :
    m.serialized.length = exchangeSize (rnd + 1) 1 := by
  obtain ⟨sig, h1, h2⟩ := C53_request hC w a rnd baseSeed ratchetSeed sigRand hb hr hi m h
  rw [h2]
  exact exchangeMessage_size (drawn_len hC (hC.genPriv_len _ hb)) (drawn_len hC (hC.genPriv_len _ hr)) hi
    (hC.sig_size _ _ _ _ h1).2

/-- **C66.** The length of the reply to a request, in every history. -/
theorem C66_response (hC : C.Lawful) (w0 : World) (ss : List Step) (ho : Ordinary w0 ss) (a : Address) (m resp : KeyExchangeMessage)
    (rnd : SessionBuilder.InitiateRand) (hb : rnd.baseSeed.length = 32) (hr : rnd.ratchetSeed.length = 32)
    (h : (SessionBuilder.processKeyExchangeMessage (Step.after w0 ss) a m rnd).result = .ok (some resp)) :
    resp.serialized.length = exchangeSize m.sequence resp.flags ∧ (resp.flags = 2 ∨ resp.flags = 6) := by
  have hre := steps_reached hC w0 ho.start ho.identity ss ho.sane
  have hd := (reached_exact hC hre (.processKeyExchange a m rnd) ⟨hb, hr⟩ _).2 rfl
  have hres : (Call.run (Step.after w0 ss) (.processKeyExchange a m rnd)).result = .ok (.keyExchange (some resp)) := by
    unfold Call.run Call.mapOutcome
    simp only [h]
  generalize Call.run (Step.after w0 ss) (.processKeyExchange a m rnd) = o at hd hres
  have hown := own_steps hC ho
  cases hd with
  | exchangeUntrusted _ => cases hres
  | request _ _ h1 =>
    cases h1 with
    | badSignature | unverifiable | noSession | noReply => cases hres
    | reply _ hk hf ha =>
      injection hres with h3
      injection h3 with h3
      obtain rfl := Option.some.inj h3
      obtain ⟨g1, g2, g3⟩ := own_answerKeys hC hre.identity hb hr hown hk
      cases ha with
      | message hs _ =>
        refine ⟨exchangeMessage_size g2 g3 g1 (hC.sig_size _ _ _ _ hs).2, ?_⟩
        cases hk with
        | new _ => exact .inl rfl
        | pending _ _ => exact .inr rfl
  | response _ _ h1 =>
    cases h1 with
    | stale | noSession | badSignature | unverifiable => cases hres
    | crossing | done =>
      injection hres with h3
      injection h3 with h3
      cases h3

/-! ## Group messages -/

/-- **C66.** The length of a group message. -/
theorem C66_group (hC : C.Lawful) (g : GroupStore) (n : SenderKeyName) (pt rand b : Bytes) (hpt : pt.length < 2 ^ 62)
    (h : (GroupCipher.encrypt g n pt rand).result = .ok b) :
    ∃ s, sendingState (g n) = some s ∧ b.length = groupSize (s.senderKeyId.getD 0) (iterationOf s) pt.length := by
  obtain ⟨s, ct, sig, h1, h2, h3, rfl⟩ := C53_group_encrypt hC g n pt rand b h hpt
  refine ⟨s, h1, ?_⟩
  rw [List.length_append, groupMessage_size, h2.length, padded_size, (hC.sig_size _ _ _ _ h3).2]
  rfl

/-- **C66.** What it gives away about the plaintext is again the number of whole blocks. -/
theorem C66_group_reveals (hC : C.Lawful) (g : GroupStore) (n : SenderKeyName) (pt pt' rand rand' b b' : Bytes)
    (hpt : pt.length < 2 ^ 62) (hpt' : pt'.length < 2 ^ 62)
    (h : (GroupCipher.encrypt g n pt rand).result = .ok b) (h' : (GroupCipher.encrypt g n pt' rand').result = .ok b') :
    b.length = b'.length ↔ pt.length / 16 = pt'.length / 16 := by
  obtain ⟨s, h1, h2⟩ := C66_group hC g n pt rand b hpt h
  obtain ⟨s', h1', h2'⟩ := C66_group hC g n pt' rand' b' hpt' h'
  obtain rfl := Option.some.inj (h1.symm.trans h1')
  rw [h2, h2', ← cipherSize_eq]
  unfold groupSize
  omega

/-- The keys of a sender-key state. -/
structure FullSender (s : SenderKeyStateS) : Prop where
  chain : (chainKeyOf s).length = 32
  signing : FullKey (s.senderSigningKey.getD {}).pub

theorem chainAt_32 (hlen : ∀ k m, (C.hmac k m).length = 32) {k : Bytes} (hk : k.length = 32) (n : Nat) : (chainAt k n).length = 32 := by
  cases n with
  | zero => exact hk
  | succ n => exact hlen _ _

theorem fullSender_does (hC : C.Lawful) {g : GroupStore} (hg : ∀ n, ∀ s ∈ (g n).senderKeyStates, FullSender s) {c : GroupCall}
    (hc : GroupSized c) (hk : GroupKeys32 c) {o : GOutcome GroupReply} (h : GroupDoes g c o) :
    ∀ n, ∀ s ∈ (groupStored g c.name o n).senderKeyStates, FullSender s := by
  intro n s hs
  unfold groupStored at hs
  split at hs
  · rename_i hn
    subst hn
    cases h with
    | sendNothing | sendUnsigned | sendLast | readNothing | readOther | readUnknown | readShort | readNoSignature
    | readForged | readAgain | readLast | readGarbage | processBad | createKnown | createBad => exact hg _ s hs
    | @sent n' _ _ t rest _ _ ht hl _ _ =>
      have hold := hg n' t (by rw [ht]; simp)
      rcases List.mem_cons.1 hs with rfl | hs
      · exact ⟨hC.hmac_len _ _, hold.signing⟩
      · exact hg n' s (by rw [ht]; exact List.mem_cons_of_mem _ hs)
    | @read n' _ _ _ x y t t' _ _ _ hm hl hst hkk hv hkey hpt =>
      have hmem : ∀ z ∈ x ++ t :: y, FullSender z := fun z hz => hg n' z (by rw [hst.split]; exact hz)
      have hs : s ∈ x ++ t' :: y := hs
      rcases List.mem_append.1 hs with hs | hs
      · exact hmem s (List.mem_append_left _ hs)
      · rcases List.mem_cons.1 hs with rfl | hs
        · have ht := hmem t (by simp)
          cases hkey with
          | kept => exact ⟨ht.chain, ht.signing⟩
          | ahead _ _ => exact ⟨chainAt_32 hC.hmac_len ht.chain _, ht.signing⟩
        · exact hmem s (by simp [hs])
    | @processed n' m h1 h2 =>
      have hs : s ∈ (g n').senderKeyStates ++ [addedState m] := hs
      rcases List.mem_append.1 hs with hs | hs
      · exact hg n' s hs
      · rw [List.mem_singleton.1 hs]
        exact ⟨hk.1, fullKey_some hk.2⟩
    | @created n' rnd t h0 h1 ht =>
      have hs : s ∈ [t] := hs
      rw [List.mem_singleton.1 hs, ht]
      exact ⟨hk, fullKey_some (drawn_len hC (hC.genPriv_len _ hc.2))⟩
  · exact hg n s hs

theorem fullSender (hC : C.Lawful) (cs : List GroupCall) (hcs : ∀ c ∈ cs, GroupSized c) (hk : ∀ c ∈ cs, GroupKeys32 c) :
    ∀ n, ∀ s ∈ (GroupCall.after GroupStore.empty cs n).senderKeyStates, FullSender s := by
  have key : ∀ (cs : List GroupCall) (g : GroupStore), GroupReached g → (∀ n, ∀ s ∈ (g n).senderKeyStates, FullSender s) →
      (∀ c ∈ cs, GroupSized c) → (∀ c ∈ cs, GroupKeys32 c) →
      ∀ n, ∀ s ∈ (GroupCall.after g cs n).senderKeyStates, FullSender s := by
    intro cs
    induction cs with
    | nil => intro g _ hf _ _; exact hf
    | cons c cs ih =>
      intro g hg hf hcs hk
      obtain ⟨o, ho⟩ := groupDoes_exists hC hg c
      have hc := hcs c (List.mem_cons_self ..)
      refine ih (c.next g) ?_ ?_ (fun d hd => hcs d (List.mem_cons_of_mem _ hd)) (fun d hd => hk d (List.mem_cons_of_mem _ hd))
      · rw [next_stored, groupDoes_run hC hg hc ho]
        exact groupDoes_sane hC hg hc ho
      · rw [next_stored, groupDoes_run hC hg hc ho]
        exact fullSender_does hC hf hc (hk c (List.mem_cons_self ..)) ho
  exact key cs _ (fun n s hs => by cases hs) (fun n s hs => by cases hs) hcs hk

/-- **C66.** The length of a sender key distribution message, in every history. -/
theorem C66_distribution (hC : C.Lawful) (cs : List GroupCall) (hcs : ∀ c ∈ cs, GroupSized c) (hk : ∀ c ∈ cs, GroupKeys32 c)
    (n : SenderKeyName) (rnd : GroupSessionBuilder.CreateRand) (hs : rnd.signSeed.length = 32) (hr : rnd.senderKey.length = 32)
    (m : SenderKeyDistributionMessage)
    (h : (GroupSessionBuilder.create (GroupCall.after GroupStore.empty cs) n rnd).result = .ok m) :
    m.serialized.length = distributionSize m.id m.iteration := by
  have hd := (C61_exact hC cs hcs (.create n rnd) ⟨by omega, hs⟩ _).2 rfl
  have hf := fullSender hC cs hcs hk
  have hres : (GroupCall.run (GroupCall.after GroupStore.empty cs) (.create n rnd)).result = .ok (.distribution m) := by
    unfold GroupCall.run GroupCall.mapG
    simp only [h]
  generalize GroupCall.run (GroupCall.after GroupStore.empty cs) (.create n rnd) = o at hd hres
  cases hd with
  | createBad _ _ => cases hres
  | createKnown h1 h2 =>
    injection hres with h3
    injection h3 with h3
    subst h3
    have := hf n _ (by rw [h1]; exact List.mem_cons_self ..)
    exact distributionMessage_size this.chain (fullKey_keyOf h2 this.signing)
  | created _ _ h1 =>
    injection hres with h3
    injection h3 with h3
    subst h3
    subst h1
    exact distributionMessage_size hr (drawn_len hC (hC.genPriv_len _ hs))

end

/-! ## The hypotheses are met -/

section
attribute [local instance] toy
open Example Spec

/-- Bob's history of C63 is an ordinary one. -/
theorem bobSteps_ordinary : Ordinary bob0 bobSteps where
  start := fun _ => rfl
  identity := rfl
  made := bob0_keysMade
  sane := bobSteps_sane
  sized := fun c hc => (bobSteps_calls c hc).1
  stores := by
    intro x hx
    simp only [bobSteps, List.mem_cons, List.not_mem_nil, or_false] at hx
    rcases hx with rfl | rfl | rfl | rfl | rfl | rfl | rfl | rfl
    · exact ⟨32, pair 32, by decide, by decide, by decide, by decide +kernel⟩
    all_goals trivial

/-- The first two steps of it, after which he has a session with Alice. -/
theorem bobSteps_start : Ordinary bob0 (bobSteps.take 2) where
  start := fun _ => rfl
  identity := rfl
  made := bob0_keysMade
  sane := fun x hx => bobSteps_sane x (List.mem_of_mem_take hx)
  sized := fun c hc => (bobSteps_calls c (callsOf_take bobSteps 2 c hc)).1
  stores := fun x hx => bobSteps_ordinary.stores x (List.mem_of_mem_take hx)

/-- The length of Bob's reply with `n` bytes. -/
def Example.replySize (n : Nat) : Option Nat :=
  match (SessionCipher.encrypt (Step.after bob0 (bobSteps.take 2)) aliceAddr (List.replicate n 121)).result with
  | .ok c => some c.serialize.length
  | .error _ => none

/-- `C66_encrypt`, `C66_reveals`: one byte and fifteen give 66 bytes, sixteen give 82. -/
example : [1, 15, 16].map replySize = [some 66, some 66, some 82] ∧ sessionSize 0 0 1 = 66 ∧ sessionSize 0 0 16 = 82 := by
  decide +kernel

/-- `C66_overhead_false` applied: one byte of plaintext. -/
example : ∃ c, (SessionCipher.encrypt (Step.after bob0 (bobSteps.take 2)) aliceAddr [121]).result = .ok c ∧
    [121].length + CiphertextMessage.ENCRYPTED_MESSAGE_OVERHEAD < c.serialize.length := by
  have h : (SessionCipher.encrypt (Step.after bob0 (bobSteps.take 2)) aliceAddr [121]).result.toOption.isSome := by decide +kernel
  cases hc : (SessionCipher.encrypt (Step.after bob0 (bobSteps.take 2)) aliceAddr [121]).result with
  | error e => rw [hc] at h; cases h
  | ok c => exact ⟨c, rfl, C66_overhead_false toy_lawful bob0 _ bobSteps_start aliceAddr [121] c (by decide) (by decide) hc⟩

/-- `C66_encrypt` for a message that announces a session: Alice's first. -/
example : firstPk.serialized.length = preKeySize (some 31) 11 22 (sessionSize 0 0 2) := by decide +kernel

/-- `C66_request` and `C66_response`. -/
example : keAskMsg.serialized.length = exchangeSize keAskMsg.sequence 1 ∧
    keAnswerMsg.serialized.length = exchangeSize keAskMsg.sequence 2 := by decide +kernel

/-- `C66_group`, `C66_distribution`: the history of C61 begins with 32-byte keys. -/
example : ((GroupCall.replies GroupStore.empty (grpHistory.take 3)).map fun x => match x with
    | .ok (.bytes b) => b.length | .ok (.distribution m) => m.serialized.length | _ => 0) =
    [0, distributionSize grpRand.keyId 0, groupSize grpRand.keyId 0 2] ∧ grpRand.senderKey.length = 32 ∧
    grpRand.signSeed.length = 32 := by decide +kernel

end
end Axolotl
