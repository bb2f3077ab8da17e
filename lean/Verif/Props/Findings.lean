import Verif.Props.Pinning
import Verif.Props.Setup
import Verif.Props.Concurrent
import Verif.Props.NoReuse
import Verif.Props.Hkdf
import Verif.Props.Calls
import Verif.Real.Instance

/-!
# C81, and C11, C13, C15: what goes wrong goes wrong with all keys and all primitives

The counterexamples beside C11, C13, C15 and C18 are single runs.  Here the same is proved of every run of their kind.
-/

namespace Axolotl
section
variable [C : Crypto]
open SessionState SessionBuilder RatchetingSession
open Spec (GoodPair)

/-! ## C81: an identity key is saved before anything is checked -/

theorem agreement_total (hC : C.Lawful) {pub priv : Bytes} (h1 : pub.length = 32) (h2 : priv.length = 32) :
    ∃ s, Curve.calculateAgreement pub priv = .ok s := by
  obtain ⟨s, hs⟩ := hC.dh_total priv pub h2 h1
  exact ⟨s, by unfold Curve.calculateAgreement; rw [hs]⟩

theorem bobSecrets_total (hC : C.Lawful) {p : BobParameters} (h1 : p.ourIdentityKey.priv.length = 32)
    (h2 : p.ourSignedPreKey.priv.length = 32) (h3 : ∀ k, p.ourOneTimePreKey = some k → k.priv.length = 32)
    (h4 : p.theirIdentityKey.length = 32) (h5 : p.theirBaseKey.length = 32) : ∃ s, bobSecrets p = .ok s := by
  obtain ⟨d1, e1⟩ := agreement_total hC h4 h2
  obtain ⟨d2, e2⟩ := agreement_total hC h5 h1
  obtain ⟨d3, e3⟩ := agreement_total hC h5 h2
  unfold bobSecrets
  rw [e1, ok_bind, e2, ok_bind, e3, ok_bind]
  cases ho : p.ourOneTimePreKey with
  | none => exact ⟨_, rfl⟩
  | some k =>
    obtain ⟨d4, e4⟩ := agreement_total hC h5 (h3 k ho)
    simp only
    rw [e4]
    exact ⟨_, rfl⟩

/-- **C81.** A prekey message names a signed prekey of ours and, if any, a one-time prekey of ours; the other fields are any keys and
any inner message.  If the application trusts the identity key (because it knows none for this name), the key is saved, whether or
not the message is accepted. -/
theorem C81_saved (hC : C.Lawful) (w : World) (hw : Spec.GoodSelf w) (a : Address) (m : PreKeyWhisperMessage) (spk : KeyPair)
    (hs : Spec.HoldsSigned w m.signedPreKeyId spk) (hg : GoodPair spk)
    (ho : ∀ i, m.preKeyId = some i → ∃ k, Spec.HoldsPreKey w i k ∧ GoodPair k)
    (hi : m.identityKey.length = 32) (hb : m.baseKey.length = 32) (hr : m.registrationId < 2 ^ 32)
    (ht : w.isTrusted a.1 m.identityKey = true) (seed : Bytes) (seeds : Nat → Bytes) :
    ((SessionCipher.decryptPkmsg w a m seed seeds).final w).identities a.1 = some m.identityKey := by
  have hv : ∃ x, processV3 w (w.loadSession a) m = .ok x := by
    cases hk : (w.loadSession a).hasSessionState m.version (Curve.serializePoint m.baseKey) with
    | true => exact ⟨_, by unfold processV3; rw [hk]; rfl⟩
    | false =>
      cases hp : m.preKeyId with
      | none =>
        obtain ⟨sec, e⟩ := bobSecrets_total hC (p :=
          { ourIdentityKey := w.identityKeyPair, ourSignedPreKey := spk, ourRatchetKey := spk, ourOneTimePreKey := none,
            theirIdentityKey := m.identityKey, theirBaseKey := m.baseKey }) hw.identity.priv hg.priv
          (fun k h => by cases h) hi hb
        obtain ⟨s, h, _⟩ := processV3_forward hC (w := w) (a := a) (m := m) (otk := none) hk hs hg (by rw [hp]) e
          hw.registration hr
        exact ⟨_, h⟩
      | some i =>
        obtain ⟨k, k1, k2⟩ := ho i hp
        obtain ⟨sec, e⟩ := bobSecrets_total hC (p :=
          { ourIdentityKey := w.identityKeyPair, ourSignedPreKey := spk, ourRatchetKey := spk, ourOneTimePreKey := some k,
            theirIdentityKey := m.identityKey, theirBaseKey := m.baseKey }) hw.identity.priv hg.priv
          (fun k' h => by injection h with h; rw [← h]; exact k2.priv) hi hb
        obtain ⟨s, h, _⟩ := processV3_forward hC (w := w) (a := a) (m := m) (otk := some k) hk hs hg
          (by rw [hp]; exact ⟨k, rfl, k1, k2⟩) e hw.registration hr
        exact ⟨_, h⟩
  obtain ⟨x, hv⟩ := hv
  rcases decryptPkmsg_cases w a m seed seeds with ⟨h, _⟩ | ⟨_, ⟨e, h, _⟩ | ⟨r, u, e, _, _, h⟩ | ⟨r, u, pt, r', _, _, h⟩⟩
  · rw [ht] at h; cases h
  · rw [hv] at h; cases h
  · rw [h]; simp [Outcome.final, World.applyAll, World.apply, upd]
  · rw [h]
    cases u <;> simp [Outcome.final, World.applyAll, World.apply, upd]

/-- **C81.** With a callback that sticks to the first key, the name is then closed to every other key: whatever calls follow, each
message, bundle and key exchange that comes with another identity key is refused and changes nothing. -/
theorem C81_locked_out (w : World) (hp : Spec.Pinning w) (a : Address) (k : ECPub) (hk : w.identities a.1 = some k)
    (cs : List Call) (d : Nat) : let w' := Call.after w cs
    (∀ (m : PreKeyWhisperMessage) seed seeds, m.identityKey ≠ k →
      SessionCipher.decryptPkmsg w' (a.1, d) m seed seeds = ⟨[], .error .untrustedIdentity⟩) ∧
    (∀ (b : PreKeyBundle) s1 s2, b.identityKey ≠ k →
      processPreKeyBundle w' (a.1, d) b s1 s2 = ⟨[], .error .untrustedIdentity⟩) ∧
    (∀ (m : KeyExchangeMessage) rnd, m.identityKey ≠ k →
      processKeyExchangeMessage w' (a.1, d) m rnd = ⟨[], .error .untrustedIdentity⟩) := by
  have hid := C57_pinned cs w hp a.1 k hk
  have hpol : (Call.after w cs).policy = w.policy := by
    clear hid hk hp
    induction cs generalizing w with
    | nil => rfl
    | cons c cs ih => exact (ih (c.next w)).trans (next_fixed w c).1
  have ht : ∀ k', k' ≠ k → (Call.after w cs).isTrusted a.1 k' = false := by
    intro k' hne
    cases h : (Call.after w cs).isTrusted a.1 k' with
    | false => rfl
    | true =>
      unfold World.isTrusted at h
      rw [hpol] at h
      rcases hp _ _ _ h with h1 | h1
      · rw [hid] at h1; cases h1
      · rw [hid] at h1; exact absurd (Option.some.inj h1).symm hne
  dsimp only
  refine ⟨fun m seed seeds hne => ?_, fun b s1 s2 hne => ?_, fun m rnd hne => ?_⟩
  · unfold SessionCipher.decryptPkmsg process
    simp only [ht _ hne]
    rfl
  · unfold processPreKeyBundle
    simp only [ht _ hne]
    rfl
  · unfold processKeyExchangeMessage
    simp only [ht _ hne]
    rfl

/-- **C81.** Both together: one message that nobody needs a secret to write, for a name we do not know yet.  It is refused or not; from
then on the owner of the name, who has another key, is refused for ever. -/
theorem C81_forged (hC : C.Lawful) (w : World) (hw : Spec.GoodSelf w) (hp : w.policy = tofu) (a : Address)
    (hnone : w.identities a.1 = none) (m : PreKeyWhisperMessage) (spk : KeyPair)
    (hs : Spec.HoldsSigned w m.signedPreKeyId spk) (hg : GoodPair spk)
    (ho : ∀ i, m.preKeyId = some i → ∃ k, Spec.HoldsPreKey w i k ∧ GoodPair k)
    (hi : m.identityKey.length = 32) (hb : m.baseKey.length = 32) (hr : m.registrationId < 2 ^ 32)
    (seed : Bytes) (seeds : Nat → Bytes) (cs : List Call) (d : Nat) (m' : PreKeyWhisperMessage) (hne : m'.identityKey ≠ m.identityKey)
    (seed' : Bytes) (seeds' : Nat → Bytes) :
    SessionCipher.decryptPkmsg (Call.after ((SessionCipher.decryptPkmsg w a m seed seeds).final w) cs) (a.1, d) m' seed' seeds' =
      ⟨[], .error .untrustedIdentity⟩ := by
  have ht : w.isTrusted a.1 m.identityKey = true := by
    unfold World.isTrusted tofu at *
    rw [hp]
    simp [hnone]
  have h1 := C81_saved hC w hw a m spk hs hg ho hi hb hr ht seed seeds
  have h2 : ((SessionCipher.decryptPkmsg w a m seed seeds).final w).policy = w.policy :=
    (next_fixed w (.decryptPkmsg a m seed seeds)).1
  exact (C81_locked_out _ (tofu_pins _ (h2.trans hp)) a _ h1 cs d).1 m' seed' seeds' hne

/-! ## C13: without a one-time prekey no message is ever read -/

/-- Refused by the other side once it has gone over the wire. -/
def Spec.RefusedAs (e : Err) (w : World) (a : Address) (r : Res Reply) : Prop :=
  ∃ c p, r = .ok (.ciphertext c) ∧ c.getType = 3 ∧ PreKeyWhisperMessage.parse c.serialize = .ok p ∧
    ∀ seed seeds, SessionCipher.decryptPkmsg w a p seed seeds = ⟨[], .error e⟩

theorem refused_all (hC : C.Lawful) {wB : World} {ab ba : Address} {lid rid : ECPub} {x : Epoch .v3} {R : List (Recv .v3)}
    {hd : PkHeader} (hl : lid.length = 32) (hr : rid.length = 32) (hx : x.Good) (ho : hd.Ok)
    (href : ∀ (p : PreKeyWhisperMessage), p.version = 3 → p.preKeyId = some (hd.preKeyId.getD 0) → p.signedPreKeyId = hd.signedPreKeyId →
      p.baseKey = hd.baseKey → p.identityKey = lid →
      ∀ seed seeds, SessionCipher.decryptPkmsg wB ba p seed seeds = ⟨[], .error .invalidKeyId⟩) :
    ∀ (pts : List Bytes) (w : World) (n : Nat) (r : SessionRecord), (∀ pt ∈ pts, pt.length < 2 ^ 62) →
      n + pts.length < 2 ^ 32 → w.sessions ab = some r → Party lid rid x n R r.sessionState → Announcing hd r.sessionState →
      ∀ y ∈ Call.replies w (pts.map (.encrypt ab)), Spec.RefusedAs .invalidKeyId wB ba y := by
  intro pts
  induction pts with
  | nil => intro w n r _ _ _ _ _ y hy; cases hy
  | cons pt pts ih =>
    intro w n r hpt hn hs hp ha y hy
    rw [List.length_cons] at hn
    obtain ⟨m, p, p', s', g1, g2, _, _, g5, g6, _⟩ := send_prekey hC hl hr hp hx (by omega) pt (hpt pt (by simp)) ho ha
    have he := encrypt_forward (w := w) (a := ab) hs g1
    have hrun : (Call.encrypt ab pt).run w = ⟨[.session ab ({ r with fresh := false }.setState s')], .ok (.ciphertext (.preKey p))⟩ := by
      unfold Call.run Call.mapOutcome
      dsimp only
      rw [he]
    rw [List.map_cons, Call.replies, hrun] at hy
    rcases List.mem_cons.1 hy with rfl | hy
    · exact ⟨.preKey p, p', rfl, rfl, g2.parse, href p' g2.version g2.pk g2.spk g2.bk g2.ik⟩
    · refine ih ((Call.encrypt ab pt).next w) (n + 1) ({ r with fresh := false }.setState s')
        (fun q hq => hpt q (List.mem_cons_of_mem _ hq)) (by omega) ?_ g5 g6 y hy
      unfold Call.next
      rw [hrun]
      simp [Outcome.final, World.applyAll, World.apply, upd]

/-- **C13, the other case.** A bundle without a one-time prekey is accepted, and messages are encrypted; but however many are sent,
the recipient refuses every one with `InvalidKeyId`, because it looks for a prekey with id 0 (which `KeyHelper` never generates,
C47).  Nothing is stored, so this does not change. -/
theorem C13_none_read (hC : C.Lawful) {wA wB : World} {ab ba : Address} {b : PreKeyBundle} {spkId : Nat}
    {spk : KeyPair} {baseSeed ratchetSeed bobSeed pt : Bytes}
    (h : Spec.FirstContact wA wB ab ba b spkId spk none baseSeed ratchetSeed bobSeed pt) (h0 : wB.preKeys 0 = none)
    (pts : List Bytes) (hpts : ∀ q ∈ pts, q.length < 2 ^ 62) (hn : pts.length < 2 ^ 32) :
    let wA1 := (processPreKeyBundle wA ab b baseSeed ratchetSeed).final wA
    (processPreKeyBundle wA ab b baseSeed ratchetSeed).result = .ok () ∧
    (Call.replies wA1 (pts.map (.encrypt ab))).length = pts.length ∧
    ∀ y ∈ Call.replies wA1 (pts.map (.encrypt ab)), Spec.RefusedAs .invalidKeyId wB ba y := by
  obtain ⟨hA, hB, htA, htB, h1, h2, h3, hnew, _⟩ := h
  have hb := generate_good hC h1
  obtain ⟨secrets, s0, e1, e2, e3, e4, e5, e6⟩ := bundle_forward hC hA hB htA h1 h2
  have hy := nextEpoch_good hC (epoch0 spk secrets) h2
  have hok : PkHeader.Ok ⟨wA.registrationId.toNat, Option.map Prod.fst (none : Option (Nat × KeyPair)), spkId,
      (Curve.generateKeyPair baseSeed).pub⟩ := by
    refine ⟨?_, (fun n h => nomatch h), hB.signedRange, hb.pub_len hC⟩
    have := hA.registration
    show wA.registrationId.toNat < _
    omega
  dsimp only
  refine ⟨by rw [e2], ?_, ?_⟩
  · generalize (processPreKeyBundle wA ab b baseSeed ratchetSeed).final wA = w
    clear hpts hn
    induction pts generalizing w with
    | nil => rfl
    | cons q qs ih => exact congrArg (· + 1) (ih _)
  · refine refused_all hC (hA.identity.pub_len hC) (hB.goodIdentity.pub_len hC) hy hok ?_ pts _ 0
      ((archiveUnlessFresh (wA.loadSession ab)).setState s0) hpts (by omega) ?_ e3 e4
    · intro p p1 p2 p3 p4 p5 seed seeds
      obtain ⟨rec, k1, k2⟩ := getKeyPair_signed hB.signedStored (hB.goodSigned.pub_len hC)
      unfold SessionCipher.decryptPkmsg process
      have htr : wB.isTrusted ba.1 p.identityKey = true := by rw [p5]; exact htB
      have hv : processV3 wB (wB.loadSession ba) p = .error .invalidKeyId := by
        have hk : (wB.loadSession ba).hasSessionState p.version (Curve.serializePoint p.baseKey) = false := by
          cases hk : (wB.loadSession ba).hasSessionState p.version (Curve.serializePoint p.baseKey) with
          | false => rfl
          | true =>
            exfalso
            obtain ⟨r, hr, hkn⟩ := (loaded_known _ _ _).1 hk
            rw [p1, p4] at hkn
            exact hnew r hr hkn
        unfold processV3
        rw [hk, p2, p3]
        simp only [Bool.false_eq_true, if_false]
        rw [k1, ok_bind, k2, ok_bind]
        unfold World.loadPreKey
        simp only [Option.map_none, Option.getD_none, h0, error_bind]
      simp only [htr, Bool.not_true, Bool.false_eq_true, if_false, hv]
    · rw [e2]
      simp [Outcome.final, World.applyAll, World.apply, upd]

/-! ## C15: a key exchange answered twice -/

omit C in
theorem pairOf_unique {pub priv : Option Bytes} {k k' : KeyPair} (h : Spec.PairOf pub priv k) (h' : Spec.PairOf pub priv k') : k = k' := by
  obtain ⟨⟨x, h1, h2⟩, h3⟩ := h
  obtain ⟨⟨x', g1, g2⟩, g3⟩ := h'
  rw [h1] at g1
  injection g1 with g1
  injection g1 with _ g1
  subst g1
  cases k
  cases k'
  simp only at h2 h3 g2 g3
  rw [h2, g2, ← h3, ← g3]

theorem encrypt_result_of (w : World) (a : Address) (pt : Bytes) :
    (SessionCipher.encrypt w a pt).result = (SessionCipher.encryptWithState (w.loadSession a).sessionState pt).map Prod.fst := by
  unfold SessionCipher.encrypt
  dsimp only
  generalize SessionCipher.encryptWithState (w.loadSession a).sessionState pt = x
  cases x <;> rfl

/-- **C15, what makes it false.** At two points of a history the same request of ours is pending, and an answer to it is accepted at
both; our base key is not the smaller one.  Then the two sessions send under the same ratchet key from the same counter, and the first
messages are encrypted with the same key and initialisation vector. -/
theorem C15_answered_twice (hC : C.Lawful) (w0 : World) (hw : w0.NoSessions) (cs cs' : List Call) (a : Address)
    (m : KeyExchangeMessage) (rnd rnd' : InitiateRand) (p : PendingKeyExchangeS)
    (hp : Spec.pendingOf ((Call.after w0 cs).sessions a) = some p) (hp' : Spec.pendingOf ((Call.after w0 cs').sessions a) = some p)
    (hrole : ∀ base, Spec.PairOf p.localBaseKey p.localBaseKeyPrivate base → ¬ Spec.SmallerKey base.pub m.baseKey)
    (h : (processKeyExchangeMessage (Call.after w0 cs) a m rnd).writes ≠ [])
    (h' : (processKeyExchangeMessage (Call.after w0 cs') a m rnd').writes ≠ []) (pt pt' : Bytes) (c c' : Ciphertext)
    (hc : (SessionCipher.encrypt (Call.after w0 (cs ++ [.processKeyExchange a m rnd])) a pt).result = .ok c)
    (hc' : (SessionCipher.encrypt (Call.after w0 (cs' ++ [.processKeyExchange a m rnd'])) a pt').result = .ok c') :
    c'.inner.senderRatchetKey = c.inner.senderRatchetKey ∧ c'.inner.counter = c.inner.counter ∧
    ∃ key iv, AES.encrypt key iv pt = .ok c.inner.ciphertext ∧ AES.encrypt key iv pt' = .ok c'.inner.ciphertext := by
  obtain ⟨identity, base, ratchet, s, new, e1, e2, e3, e4⟩ := C56_exchange hC.hmac_len w0 hw cs a m rnd h
  obtain ⟨identity', base', ratchet', s', new', f1, f2, f3, f4⟩ := C56_exchange hC.hmac_len w0 hw cs' a m rnd' h'
  rw [hp] at e1
  rw [hp'] at f1
  obtain ⟨⟨i1, i2, i3⟩, _⟩ := e1
  obtain ⟨⟨j1, j2, j3⟩, _⟩ := f1
  have q1 := pairOf_unique i1 j1
  have q2 := pairOf_unique i2 j2
  have q3 := pairOf_unique i3 j3
  subst q1 q2 q3
  have hss : s = s' := by
    cases e2 with
    | initiator g _ _ => exact absurd g (hrole _ i2)
    | answerer _ g =>
      cases f2 with
      | initiator g _ _ => exact absurd g (hrole _ i2)
      | answerer _ g' => rw [answerMaterial_unique g g']
  subst hss
  have load : ∀ {cs : List Call} {rnd : InitiateRand} {new : SessionRecord},
      (processKeyExchangeMessage (Call.after w0 cs) a m rnd).writes = [.session a new, .identity a.1 m.identityKey] →
      new.sessionState = s →
      ((Call.after w0 (cs ++ [.processKeyExchange a m rnd])).loadSession a).sessionState = s := by
    intro cs rnd new g1 g2
    have : (Call.after w0 (cs ++ [.processKeyExchange a m rnd])) =
        (Call.after w0 cs).applyAll [.session a new, .identity a.1 m.identityKey] := by
      unfold Call.after
      rw [List.foldl_append]
      show Outcome.final _ _ = _
      unfold Outcome.final Call.run Call.mapOutcome
      dsimp only
      rw [g1.symm]
      rfl
    rw [this]
    simp [World.loadSession, World.applyAll, World.apply, upd, g2]
  have l1 := load e4 e3.1
  have l2 := load f4 f3.1
  obtain ⟨_, _, hcnt, hkey, _⟩ := C16_encrypt _ a _ c hc
  obtain ⟨_, _, hcnt2, hkey2, _⟩ := C16_encrypt _ a _ c' hc'
  rw [l1] at hcnt hkey
  rw [l2] at hcnt2 hkey2
  rw [hkey] at hkey2
  obtain ⟨key, iv, hk⟩ := encrypt_key (Call.after w0 (cs ++ [.processKeyExchange a m rnd])) a
  refine ⟨(Except.ok.inj hkey2).symm, by rw [hcnt, hcnt2], key, iv, hk _ _ hc, hk _ _ ?_⟩
  rw [encrypt_result_of, l1, ← l2, ← encrypt_result_of]
  exact hc'

/-! ## C11: from block 128 on every output is wrong -/

open Spec in
theorem expandLoop_block (hlen : ∀ k m, (C.hmac k m).length = 32) (prk info : Bytes) :
    ∀ k n i rem, i + k = 127 → k < n → 32 * k ≤ rem →
      ((Kdf.expandLoop prk info n (i + 1) (hkdfT prk info i) rem).drop (32 * k)).take 32 =
        (C.hmac prk (hkdfT prk info 127 ++ info ++ [0xC2, 0x80])).take (rem - 32 * k) := by
  intro k
  induction k with
  | zero =>
    intro n i rem hi hn hr
    obtain ⟨n, rfl⟩ : ∃ m, n = m + 1 := ⟨n - 1, by omega⟩
    obtain rfl : i = 127 := by omega
    simp only [Kdf.expandLoop, Nat.mul_zero, List.drop_zero, Nat.sub_zero]
    have : Kdf.chrEncode ((127 + 1) % 256) = [0xC2, 0x80] := by decide
    rw [this, hlen]
    have hl := hlen prk (hkdfT prk info 127 ++ info ++ [0xC2, 0x80])
    by_cases h : rem ≤ 32
    · rw [Nat.min_eq_left h]
      have hz : ∀ n i mx, Kdf.expandLoop prk info n i mx 0 = [] := by
        intro n i mx
        apply List.eq_nil_of_length_eq_zero
        rw [expandLoop_length hlen _ _ _ _ _ _ (by omega)]
      rw [Nat.sub_self, hz, List.append_nil, List.take_take, Nat.min_eq_right h]
    · rw [Nat.min_eq_right (by omega), List.take_append_of_le_length (by rw [List.length_take]; omega), List.take_take,
        Nat.min_self, List.take_of_length_le (by omega), List.take_of_length_le (by omega)]
  | succ k ih =>
    intro n i rem hi hn hr
    obtain ⟨n, rfl⟩ : ∃ m, n = m + 1 := ⟨n - 1, by omega⟩
    have hT : Crypto.hmac prk (hkdfT prk info i ++ info ++ Kdf.chrEncode ((i + 1) % 256)) = hkdfT prk info (i + 1) := by
      rw [hkdfT, Nat.mod_eq_of_lt (by omega)]
      simp [Kdf.chrEncode, show i + 1 < 128 by omega]
    simp only [Kdf.expandLoop]
    have hl : (hkdfT prk info (i + 1)).length = 32 := by rw [hkdfT]; exact hlen _ _
    rw [hT, hl, Nat.min_eq_right (by omega), List.drop_append, List.length_take, hl, Nat.min_self,
      List.drop_of_length_le (by rw [List.length_take, hl]; omega), List.nil_append,
      show 32 * (k + 1) - 32 = 32 * k by omega, ih n (i + 1) (rem - 32) (by omega) (by omega) (by omega),
      show rem - 32 - 32 * k = rem - 32 * (k + 1) by omega]

omit C in
theorem flatten_block : ∀ (l : List Bytes) (k : Nat) (x : Bytes), (∀ y ∈ l, y.length = 32) → l[k]? = some x →
    (l.flatten.drop (32 * k)).take 32 = x := by
  intro l
  induction l with
  | nil => intro k x _ h; simp at h
  | cons y l ih =>
    intro k x hl hk
    have hy := hl y (by simp)
    cases k with
    | zero =>
      simp only [List.getElem?_cons_zero, Option.some.injEq] at hk
      subst hk
      rw [Nat.mul_zero, List.drop_zero, List.flatten_cons, List.take_append_of_le_length (by omega), List.take_of_length_le (by omega)]
    | succ k =>
      rw [List.getElem?_cons_succ] at hk
      rw [List.flatten_cons, List.drop_append, List.drop_of_length_le (by omega), List.nil_append, hy,
        show 32 * (k + 1) - 32 = 32 * k by omega]
      exact ih k x (fun z hz => hl z (List.mem_cons_of_mem _ hz)) hk

open Spec in
theorem right_collision (hlen : ∀ k m, (C.hmac k m).length = 32) (ikm info salt : Bytes) (L : Nat)
    (hL : 127 * 32 < L) (h : Kdf.v3.deriveSecrets ikm info L salt = hkdf salt ikm info L) :
    let key := C.hmac (if salt = [] then List.replicate 32 0 else salt) ikm
    let m := hkdfT key info 127 ++ info
    (C.hmac key (m ++ [0xC2, 0x80])).take (L - 4064) = (C.hmac key (m ++ [0x80])).take (L - 4064) := by
  have h1 := expandLoop_block hlen (Crypto.hmac (if salt = [] then List.replicate 32 0 else salt) ikm) info 127
    ((L + 31) / 32) 0 L rfl (by omega) (by omega)
  unfold Kdf.deriveSecrets Kdf.expand hkdf Kdf.extract at h
  simp only [Kdf.startOffset, Kdf.HASH_OUTPUT_SIZE] at h
  generalize hprk : Crypto.hmac (if salt = [] then List.replicate 32 0 else salt) ikm = prk at h h1
  simp only [Nat.zero_add] at h1
  rw [show hkdfT prk info 0 = [] from rfl, h] at h1
  dsimp only
  rw [← h1]
  have h2 := flatten_block ((List.range ((L + 31) / 32)).map fun i => hkdfT prk info (i + 1)) 127 (hkdfT prk info 128)
    (by
      intro y hy
      obtain ⟨i, _, rfl⟩ := List.mem_map.1 hy
      rw [hkdfT]; exact hlen _ _)
    (by rw [List.getElem?_map, List.getElem?_range (by omega)]; rfl)
  rw [List.drop_take, List.take_take, Nat.min_comm, ← List.take_take, h2]
  rfl
open Spec in
/-- **C11, the other case.** Beyond 4064 bytes an output that is right is a collision: two messages whose codes under the extracted key
agree in the bytes asked for, the last byte of one being the two bytes C2 80 in the other. -/
theorem C11_right_only_by_collision (hlen : ∀ k m, (C.hmac k m).length = 32) (ikm info salt : Bytes) (L : Nat)
    (hL : 127 * 32 < L) (h : Kdf.v3.deriveSecrets ikm info L salt = hkdf salt ikm info L) :
    ∃ key m, (C.hmac key (m ++ [0xC2, 0x80])).take (L - 4064) = (C.hmac key (m ++ [0x80])).take (L - 4064) := by
  exact ⟨_, _, right_collision hlen ikm info salt L hL h⟩


end

/-! ## Instances -/

namespace Example
section
attribute [local instance] real
set_option maxRecDepth 100000 in
/-- With SHA-256 itself: the first length with a whole block 128. -/
theorem C11_false_for_sha256 : Kdf.v3.deriveSecrets [1] [2] 4096 [3] ≠ Spec.hkdf [3] [1] [2] 4096 := by
  intro h
  have := right_collision real_lawful.hmac_len [1] [2] [3] 4096 (by omega) h
  revert this
  decide +kernel
end

attribute [local instance] toy
open Spec

theorem good_pair (n : UInt8) : GoodPair (pair n) := ⟨rfl, rfl, toy_generated _ rfl⟩

/-- Mallory writes to Bob in the name of Alice. -/
def malloryPk : PreKeyWhisperMessage :=
  { serialized := [], version := 3, registrationId := 5, preKeyId := some 31, signedPreKeyId := 22, baseKey := key 88,
    identityKey := key 66, message := noMessage }

theorem bob_self : GoodSelf bob0 := ⟨good_pair 2, by decide⟩

theorem bob_signed : HoldsSigned bob0 22 (pair 22) := ⟨bobSignedPreKey, by decide +kernel, by decide +kernel, by decide +kernel⟩

theorem bob_holds : ∀ i, malloryPk.preKeyId = some i → ∃ k, HoldsPreKey bob0 i k ∧ GoodPair k := by
  intro i hi
  cases hi
  exact ⟨pair 31, ⟨bobPreKey, by decide +kernel, by decide +kernel, by decide +kernel⟩, good_pair 31⟩

/-- Bob refuses Mallory's message, and then Alice's, which he would have read. -/
example : (SessionCipher.decryptPkmsg bob0 aliceAddr malloryPk (key 51) (fun _ => key 52)).result = .error .invalidMessage ∧
    SessionCipher.decryptPkmsg (Call.after ((SessionCipher.decryptPkmsg bob0 aliceAddr malloryPk (key 51) (fun _ => key 52)).final bob0) [])
      aliceAddr firstPk (key 51) (fun _ => key 52) = ⟨[], .error .untrustedIdentity⟩ ∧
    bobGot.result = .ok [104, 105] :=
  ⟨by decide +kernel,
   C81_forged toy_lawful bob0 bob_self rfl aliceAddr rfl malloryPk (pair 22) bob_signed (good_pair 22) bob_holds (by decide) (by decide)
    (by decide) (key 51) (fun _ => key 52) [] 1 firstPk (by decide +kernel) (key 51) (fun _ => key 52),
   bobGot_ok⟩

/-- Three messages, none of which is read. -/
example := C13_none_read toy_lawful contact_example_bare rfl [[1], [2, 3], []] (by decide) (by decide)

/-- The request that is pending when Bob's answer arrives. -/
def reusePending : PendingKeyExchangeS := (Spec.pendingOf ((Call.after alice0 reuseA).sessions bobAddr)).getD {}

theorem reuse_role (base : KeyPair) (h : PairOf reusePending.localBaseKey reusePending.localBaseKeyPrivate base) :
    ¬ SmallerKey base.pub reuseAnswerMsg.baseKey := by
  have h' : PairOf reusePending.localBaseKey reusePending.localBaseKeyPrivate (pair 99) :=
    ⟨⟨key 99, by decide +kernel, by decide +kernel⟩, by decide +kernel⟩
  rw [pairOf_unique h h']
  rintro ⟨i, h1, h2, _⟩
  have : ∀ i < 8, ¬ word (pair 99).pub i < word reuseAnswerMsg.baseKey i := by decide +kernel
  exact this i h1 h2

/-- The answer of `C15_false`, before and after the older reply arrived. -/
example : ∃ c c' key iv,
    (SessionCipher.encrypt (Call.after alice0 (reuseCalls.take 4)) bobAddr [1, 2, 3]).result = .ok c ∧
    (SessionCipher.encrypt (Call.after alice0 (reuseCalls.take 7)) bobAddr [4, 5, 6, 7]).result = .ok c' ∧
    AES.encrypt key iv [1, 2, 3] = .ok c.inner.ciphertext ∧ AES.encrypt key iv [4, 5, 6, 7] = .ok c'.inner.ciphertext := by
  have h1 : (SessionCipher.encrypt (Call.after alice0 (reuseCalls.take 4)) bobAddr [1, 2, 3]).result.toOption.isSome = true := by
    decide +kernel
  have h2 : (SessionCipher.encrypt (Call.after alice0 (reuseCalls.take 7)) bobAddr [4, 5, 6, 7]).result.toOption.isSome = true := by
    decide +kernel
  obtain ⟨c, h1⟩ : ∃ c, (SessionCipher.encrypt (Call.after alice0 (reuseCalls.take 4)) bobAddr [1, 2, 3]).result = .ok c := by
    generalize (SessionCipher.encrypt (Call.after alice0 (reuseCalls.take 4)) bobAddr [1, 2, 3]).result = x at h1
    cases x with
    | error e => cases h1
    | ok c => exact ⟨c, rfl⟩
  obtain ⟨c', h2⟩ : ∃ c, (SessionCipher.encrypt (Call.after alice0 (reuseCalls.take 7)) bobAddr [4, 5, 6, 7]).result = .ok c := by
    generalize (SessionCipher.encrypt (Call.after alice0 (reuseCalls.take 7)) bobAddr [4, 5, 6, 7]).result = x at h2
    cases x with
    | error e => cases h2
    | ok c => exact ⟨c, rfl⟩
  obtain ⟨_, _, key', iv, g⟩ := C15_answered_twice toy_lawful alice0 (fun _ => rfl) (reuseCalls.take 3) (reuseCalls.take 6) bobAddr
    reuseAnswerMsg ⟨key 81, key 82, key 83, key 84⟩ ⟨key 91, key 92, key 93, key 94⟩ reusePending (by decide +kernel)
    (by decide +kernel) reuse_role (by decide +kernel) (by decide +kernel) [1, 2, 3] [4, 5, 6, 7] c c' h1 h2
  exact ⟨c, c', key', iv, h1, h2, g⟩

end Example
end Axolotl
