import Verif.Proofs.Contact

/-! The key-exchange calls on honest arguments. -/

namespace Axolotl
section
variable [C : Crypto]
open SessionState SessionBuilder RatchetingSession
open Spec (GoodPair)

/-! ## The order on public keys decides the roles -/

omit C in
theorem beI32_inj {a b c d a' b' c' d' : UInt8} (h : Curve.beI32 a b c d = Curve.beI32 a' b' c' d') :
    a = a' ∧ b = b' ∧ c = c' ∧ d = d' := by
  unfold Curve.beI32 at h
  simp only at h
  have := a.toNat_lt; have := b.toNat_lt; have := c.toNat_lt; have := d.toNat_lt
  have := a'.toNat_lt; have := b'.toNat_lt; have := c'.toNat_lt; have := d'.toNat_lt
  have e : a.toNat = a'.toNat ∧ b.toNat = b'.toNat ∧ c.toNat = c'.toNat ∧ d.toNat = d'.toNat := by
    split at h <;> split at h <;> omega
  exact ⟨UInt8.toNat_inj.1 e.1, UInt8.toNat_inj.1 e.2.1, UInt8.toNat_inj.1 e.2.2.1, UInt8.toNat_inj.1 e.2.2.2⟩

omit C in
theorem unpackI_total : ∀ {n : Nat} {a : Bytes}, a.length = 4 * n → ∃ l, Curve.unpackI n a = .ok l ∧ l.length = n
  | 0, [], _ => ⟨[], rfl, rfl⟩
  | 0, _ :: _, h => by simp at h
  | n + 1, a, h => by
    match a, h with
    | x :: y :: z :: t :: rest, h =>
      obtain ⟨l, hl, hn⟩ := unpackI_total (n := n) (a := rest) (by simp only [List.length_cons] at h; omega)
      refine ⟨Curve.beI32 x y z t :: l, ?_, ?_⟩
      · show (do let t' ← Curve.unpackI n rest; _ : Res _) = _
        rw [hl]; rfl
      · simp [hn]
    | [], h => simp at h
    | [_], h => simp at h; omega
    | [_, _], h => simp at h; omega
    | [_, _, _], h => simp at h; omega

omit C in
theorem unpackI_inj : ∀ {n : Nat} {a b : Bytes} {l : List Int}, Curve.unpackI n a = .ok l → Curve.unpackI n b = .ok l →
    a = b := by
  intro n
  induction n with
  | zero =>
    intro a b l h1 h2
    cases a with
    | cons => simp [Curve.unpackI] at h1
    | nil => cases b with
      | cons => simp [Curve.unpackI] at h2
      | nil => rfl
  | succ n ih =>
    intro a b l h1 h2
    unfold Curve.unpackI at h1 h2
    split at h1
    · cases ‹n + 1 = 0›
    · rename_i n' x y z t rest e
      injection e with e
      subst e
      split at h2
      · cases ‹n + 1 = 0›
      · rename_i n'' x' y' z' t' rest' e
        injection e with e
        subst e
        obtain ⟨l1, g1, h1⟩ := bind_eq_ok.1 h1
        obtain ⟨l2, g2, h2⟩ := bind_eq_ok.1 h2
        replace h1 := Except.ok.inj h1
        replace h2 := Except.ok.inj h2
        rw [← h2] at h1
        injection h1 with h3 h4
        subst h4
        obtain ⟨rfl, rfl, rfl, rfl⟩ := beI32_inj h3
        rw [ih g1 g2]
      · cases h2
    · cases h1

omit C in
theorem tupleLt_antisymm : ∀ {a b : List Int}, a.length = b.length → a ≠ b → Curve.tupleLt b a = !Curve.tupleLt a b
  | [], [], _, h => absurd rfl h
  | [], _ :: _, h, _ => by simp at h
  | _ :: _, [], h, _ => by simp at h
  | x :: a, y :: b, h, hne => by
    unfold Curve.tupleLt
    by_cases e : x = y
    · subst e
      have : Curve.tupleLt b a = !Curve.tupleLt a b :=
        tupleLt_antisymm (by simpa using h) (fun e => hne (by rw [e]))
      simp [this]
    · by_cases hl : x < y
      · have : ¬ y < x := by omega
        have : ¬ y = x := by omega
        simp [*]
      · have : y < x := by omega
        simp [*]

omit C in
/-- Two different public keys are ordered one way or the other. -/
theorem pubLt_antisymm {a b : ECPub} (ha : a.length = 32) (hb : b.length = 32) (hne : a ≠ b) :
    ∃ t, Curve.pubLt a b = .ok t ∧ Curve.pubLt b a = .ok (!t) := by
  obtain ⟨la, h1, n1⟩ := unpackI_total (n := 8) (a := a) (by omega)
  obtain ⟨lb, h2, n2⟩ := unpackI_total (n := 8) (a := b) (by omega)
  have hl : la ≠ lb := by
    intro e; subst e; exact hne (unpackI_inj h1 h2)
  refine ⟨Curve.tupleLt la lb, ?_, ?_⟩
  · unfold Curve.pubLt; rw [h1, ok_bind, h2, ok_bind]
  · unfold Curve.pubLt; rw [h2, ok_bind, h1, ok_bind, tupleLt_antisymm (by rw [n1, n2]) hl]

/-! ## The states -/

theorem initiator_of_party {lid rid : ECPub} {kp : KeyPair} {secrets okm seed : Bytes} {s : SessionState} (hC : C.Lawful)
    (hk : GoodPair kp) (hs : seed.length = 32)
    (h : Party lid rid (nextEpoch (epoch0 kp secrets) seed) 0 [⟨epoch0 kp secrets, 0, []⟩] s)
    (h1 : setupRoot secrets = okm.take 32) (h2 : setupChain secrets = okm.drop 32) :
    Spec.InitiatorState s okm kp.pub := by
  refine ⟨⟨_, h.recv, rfl, ?_, rfl⟩, ?_⟩
  · show some ({ key := some (setupChain secrets), index := some 0 } : ChainKeyS) = _
    rw [h2]
  · obtain ⟨sec, _, d2, d3, d4⟩ := nextEpoch_next hC (x := epoch0 kp secrets) ⟨hk.priv, hk.pub⟩ hs
    refine ⟨_, sec, h.sender, d2, ?_, ?_⟩
    · rw [h.root, d3, ← h1]; rfl
    · show some ({ key := some (nextEpoch (epoch0 kp secrets) seed).chain, index := some 0 } : ChainKeyS) = _
      rw [d4, ← h1]; rfl

theorem answerer_of_party {lid rid : ECPub} {kp : KeyPair} {secrets okm : Bytes} {s : SessionState}
    (h : Party lid rid (epoch0 kp secrets) 0 [] s)
    (h1 : setupRoot secrets = okm.take 32) (h2 : setupChain secrets = okm.drop 32) :
    Spec.AnswererState s okm kp := by
  refine ⟨?_, h.recv, ?_⟩
  · rw [h.root, ← h1]; rfl
  · rw [h.sender, ← h2]; rfl

/-- What one side puts into a key exchange. -/
structure KeSide where
  identity : KeyPair
  base : KeyPair
  ratchet : KeyPair

structure KeSide.Good (x : KeSide) : Prop where
  identity : GoodPair x.identity
  base : GoodPair x.base
  ratchet : GoodPair x.ratchet

def KeSide.params (x y : KeSide) : SymmetricParameters :=
  { ourBaseKey := x.base, ourRatchetKey := x.ratchet, ourIdentityKey := x.identity, theirBaseKey := y.base.pub,
    theirRatchetKey := y.ratchet.pub, theirIdentityKey := y.identity.pub }

/-- The states the two sides of an exchange end with, `x` taking the initiator's role. -/
structure KeStates (x y : KeSide) (seed : Bytes) (secrets : Bytes) (sx sy : SessionState) : Prop where
  initiator : Party x.identity.pub y.identity.pub (nextEpoch (epoch0 y.ratchet secrets) seed) 0
    [⟨epoch0 y.ratchet secrets, 0, []⟩] sx
  answerer : Party y.identity.pub x.identity.pub (epoch0 y.ratchet secrets) 0 [] sy
  material : ∃ okm, Spec.SetupMaterial x.identity.priv x.base.priv y.identity.pub y.base.pub none okm ∧
    setupRoot secrets = okm.take 32 ∧ setupChain secrets = okm.drop 32
  noPreKey : sx.pendingPreKey = none ∧ sy.pendingPreKey = none
  noExchange : sx.pendingKeyExchange = none ∧ sy.pendingKeyExchange = none
  order : Curve.pubLt x.base.pub y.base.pub = .ok true ∧ Curve.pubLt y.base.pub x.base.pub = .ok false

theorem ke_states (hC : C.Lawful) {x y : KeSide} (hx : x.Good) (hy : y.Good) {seedX seedY : Bytes}
    (hs : seedX.length = 32) (h1 : Curve.pubLt x.base.pub y.base.pub = .ok true)
    (h2 : Curve.pubLt y.base.pub x.base.pub = .ok false) :
    ∃ secrets sx sy, initializeSession {} (x.params y) seedX = .ok sx ∧
      initializeSession {} (y.params x) seedY = .ok sy ∧ KeStates x y seedX secrets sx sy := by
  obtain ⟨secrets, a1, a2⟩ := secrets_agree hC (A := x.identity) (B := y.identity) (base := x.base) (spk := y.base)
    (otk := none) hx.identity hy.identity hx.base hy.base (by intro k hk; cases hk) y.ratchet.pub y.ratchet
  obtain ⟨sx, g1, g2, g3⟩ := initAlice_forward hC (rkp := y.ratchet) a1 rfl hy.ratchet hs
  obtain ⟨sy, k1, k2, k3⟩ := initBob_forward a2
  refine ⟨secrets, sx, sy, ?_, ?_, g2, k2, secrets_material hC.hmac_len a1, ⟨?_, ?_⟩, ⟨?_, ?_⟩, h1, h2⟩
  · unfold initializeSession isAlice KeSide.params
    simp only
    rw [h1]
    exact g1
  · unfold initializeSession isAlice KeSide.params
    simp only
    rw [h2]
    exact k1
  · rw [g3]; rfl
  · rw [k3]; rfl
  · rw [g3]; rfl
  · rw [k3]; rfl

/-! ## The three calls -/

/-- The exchange that a state has pending. -/
structure Pending (s : SessionState) (sequence : Nat) (x : KeSide) : Prop where
  eq : s.pendingKeyExchange = some
    { sequence := some sequence,
      localBaseKey := some (Curve.serializePoint x.base.pub), localBaseKeyPrivate := some x.base.priv,
      localRatchetKey := some (Curve.serializePoint x.ratchet.pub), localRatchetKeyPrivate := some x.ratchet.priv,
      localIdentityKey := some (Curve.serializePoint x.identity.pub),
      localIdentityKeyPrivate := some x.identity.priv }

theorem Pending.read {s : SessionState} {q : Nat} {x : KeSide} (hC : C.Lawful) (h : Pending s q x) (hx : x.Good) :
    hasPendingKeyExchange s = true ∧ getPendingKeyExchangeSequence s = q ∧
    getPendingKeyExchangeBaseKey s = .ok x.base ∧ getPendingKeyExchangeRatchetKey s = .ok x.ratchet ∧
    getPendingKeyExchangeIdentityKey s = .ok x.identity := by
  have l1 := hx.base.pub_len hC
  have l2 := hx.ratchet.pub_len hC
  have l3 := hx.identity.pub_len hC
  refine ⟨?_, ?_, ?_, ?_, ?_⟩
  · unfold hasPendingKeyExchange; rw [h.eq]; rfl
  · unfold getPendingKeyExchangeSequence pendingKED; rw [h.eq]; rfl
  · unfold getPendingKeyExchangeBaseKey pendingKED
    rw [h.eq]
    simp only [Option.getD_some]
    rw [decodePoint_serializePoint (by omega)]; rfl
  · unfold getPendingKeyExchangeRatchetKey pendingKED
    rw [h.eq]
    simp only [Option.getD_some]
    rw [decodePoint_serializePoint (by omega)]; rfl
  · unfold getPendingKeyExchangeIdentityKey pendingKED
    rw [h.eq]
    simp only [Option.getD_some]
    rw [decodePoint_serializePoint (by omega)]; rfl

/-- A key-exchange message of side `x`, as it comes off the wire. -/
structure KeMessage (m : KeyExchangeMessage) (x : KeSide) (sequence flags : Nat) : Prop where
  parse : KeyExchangeMessage.parse m.serialized = .ok m
  sequence : m.sequence = sequence
  flags : m.flags = flags
  baseKey : m.baseKey = x.base.pub
  ratchetKey : m.ratchetKey = x.ratchet.pub
  identityKey : m.identityKey = x.identity.pub
  signature : Curve.verifySignature m.identityKey (Curve.serializePoint m.baseKey) m.baseKeySignature = .ok true

theorem sign_forward (hC : C.Lawful) {x : KeSide} (hx : x.Good) {rand : Bytes} (hr : rand.length = 64)
    {sequence flags : Nat} (hs : sequence < 2 ^ 27) (hf : flags < 32) :
    ∃ sig m, Curve.calculateSignature rand x.identity.priv (Curve.serializePoint x.base.pub) = .ok sig ∧
      KeyExchangeMessage.create 3 sequence flags x.base.pub sig x.ratchet.pub x.identity.pub = .ok m ∧
      KeMessage m x sequence flags := by
  obtain ⟨sig, h1, h2, h3⟩ := hC.sig_ok rand x.identity.priv (Curve.serializePoint x.base.pub) hr hx.identity.drawn
  obtain ⟨m, g1, g2, g3, g4, g5, g6, g7, g8⟩ := C04_keyexchange_roundtrip sequence flags hs hf x.base.pub x.ratchet.pub
    x.identity.pub (hx.base.pub_len hC) (hx.ratchet.pub_len hC) (hx.identity.pub_len hC) sig (by omega)
  refine ⟨sig, m, by unfold Curve.calculateSignature; rw [h1], g1, g2, g3, g4, g5, g7, g8, ?_⟩
  unfold Curve.verifySignature
  rw [g8, g5, g6, hx.identity.pub, h3]

theorem init_forward (hC : C.Lawful) {w : World} {a : Address} {rnd : Nat} {bs rs ss : Bytes}
    (hw : GoodPair w.identityKeyPair) (hrnd : rnd < 65534) (h1 : bs.length = 32) (h2 : rs.length = 32) (h3 : ss.length = 64) :
    ∃ s m, processInitKeyExchangeMessage w a rnd bs rs ss = ⟨[.session a ((w.loadSession a).setState s)], .ok m⟩ ∧
      Pending s (rnd + 1) ⟨w.identityKeyPair, Curve.generateKeyPair bs, Curve.generateKeyPair rs⟩ ∧
      KeMessage m ⟨w.identityKeyPair, Curve.generateKeyPair bs, Curve.generateKeyPair rs⟩ (rnd + 1) 1 := by
  obtain ⟨sig, m, g1, g2, g3⟩ := sign_forward hC
    (x := ⟨w.identityKeyPair, Curve.generateKeyPair bs, Curve.generateKeyPair rs⟩)
    ⟨hw, generate_good hC h1, generate_good hC h2⟩ h3 (sequence := rnd + 1) (flags := 1) (by omega) (by decide)
  have hset : ∃ s, setPendingKeyExchange (w.loadSession a).sessionState (rnd + 1) (Curve.generateKeyPair bs)
      (Curve.generateKeyPair rs) w.identityKeyPair = .ok s ∧
      Pending s (rnd + 1) ⟨w.identityKeyPair, Curve.generateKeyPair bs, Curve.generateKeyPair rs⟩ := by
    unfold setPendingKeyExchange
    rw [chkU32_ok (by omega), ok_bind]
    exact ⟨_, rfl, ⟨rfl⟩⟩
  obtain ⟨s, e1, e2⟩ := hset
  refine ⟨s, m, ?_, e2, g3⟩
  unfold processInitKeyExchangeMessage
  simp only
  simp only at g1
  rw [g1, ok_bind, e1, ok_bind]
  simp only
  exact congrArg _ g2

/-- An initiate message answered with fresh keys. -/
theorem initiate_forward (hC : C.Lawful) {w : World} {a : Address} {m : KeyExchangeMessage} {x : KeSide}
    {rnd : InitiateRand} {q : Nat} {s : SessionState} (hw : GoodPair w.identityKeyPair)
    (hp : (w.loadSession a).sessionState.pendingKeyExchange = none)
    (ht : w.isTrusted a.1 x.identity.pub = true) (hm : KeMessage m x q 1) (hq : q < 2 ^ 27)
    (h1 : rnd.baseSeed.length = 32) (h2 : rnd.ratchetSeed.length = 32) (h3 : rnd.sigRand.length = 64)
    (hi : initializeSession {} (KeSide.params ⟨w.identityKeyPair, Curve.generateKeyPair rnd.baseSeed,
      Curve.generateKeyPair rnd.ratchetSeed⟩ x) rnd.sendSeed = .ok s) (hv : getSessionVersion s = 3) :
    ∃ resp, processKeyExchangeMessage w a m rnd =
        ⟨[.session a ((archiveUnlessFresh (w.loadSession a)).setState s), .identity a.1 x.identity.pub],
          .ok (some resp)⟩ ∧
      KeMessage resp ⟨w.identityKeyPair, Curve.generateKeyPair rnd.baseSeed, Curve.generateKeyPair rnd.ratchetSeed⟩ q 2 := by
  obtain ⟨sig, r, g1, g2, g3⟩ := sign_forward hC
    (x := ⟨w.identityKeyPair, Curve.generateKeyPair rnd.baseSeed, Curve.generateKeyPair rnd.ratchetSeed⟩)
    ⟨hw, generate_good hC h1, generate_good hC h2⟩ h3 (sequence := q) (flags := 2) hq (by decide)
  refine ⟨r, ?_, g3⟩
  have hst : processInitiateState w a m rnd = .ok ((archiveUnlessFresh (w.loadSession a)).setState s, 2,
      KeSide.params ⟨w.identityKeyPair, Curve.generateKeyPair rnd.baseSeed,
        Curve.generateKeyPair rnd.ratchetSeed⟩ x) := by
    unfold processInitiateState
    have hnp : hasPendingKeyExchange (w.loadSession a).sessionState = false := by
      unfold hasPendingKeyExchange; rw [hp]; rfl
    simp only
    rw [hm.signature, ok_bind, hnp]
    simp only [Bool.not_true, Bool.false_eq_true, if_false, Bool.not_false, if_true, ok_bind]
    rw [hm.baseKey, hm.ratchetKey, hm.identityKey, archive_load_state]
    unfold KeSide.params at hi
    rw [hi]
    rfl
  unfold processKeyExchangeMessage processInitiate
  rw [hm.identityKey, ht, hst]
  have hini : m.isInitiate = true := by unfold KeyExchangeMessage.isInitiate; rw [hm.flags]; rfl
  rw [hini]
  simp only [Bool.not_true, Bool.false_eq_true, if_false, if_true, KeSide.params]
  rw [hm.sequence]
  simp only at g1 g2
  rw [g1, ok_bind]
  have : getSessionVersion ((archiveUnlessFresh (w.loadSession a)).setState s).sessionState = 3 := hv
  rw [this, g2]
  rfl

/-- An initiate message that crosses our own pending one. -/
theorem crossing_forward (hC : C.Lawful) {w : World} {a : Address} {m : KeyExchangeMessage} {x y : KeSide}
    {rnd : InitiateRand} {q q' : Nat} {s : SessionState} (hy : y.Good)
    (hp : Pending (w.loadSession a).sessionState q' y)
    (ht : w.isTrusted a.1 x.identity.pub = true) (hm : KeMessage m x q 1) (hq : q < 2 ^ 27)
    (h3 : rnd.sigRand.length = 64)
    (hi : initializeSession {} (y.params x) rnd.sendSeed = .ok s) (hv : getSessionVersion s = 3) :
    ∃ resp, processKeyExchangeMessage w a m rnd =
        ⟨[.session a ((archiveUnlessFresh (w.loadSession a)).setState s), .identity a.1 x.identity.pub],
          .ok (some resp)⟩ ∧ KeMessage resp y q 6 := by
  obtain ⟨sig, r, g1, g2, g3⟩ := sign_forward hC hy h3 (sequence := q) (flags := 6) hq (by decide)
  refine ⟨r, ?_, g3⟩
  obtain ⟨e1, e2, e3, e4, e5⟩ := hp.read hC hy
  have hst : processInitiateState w a m rnd = .ok ((archiveUnlessFresh (w.loadSession a)).setState s, 6, y.params x) := by
    unfold processInitiateState
    simp only
    rw [hm.signature, ok_bind, e1]
    simp only [Bool.not_true, Bool.false_eq_true, if_false]
    rw [e5, e3, e4]
    simp only [ok_bind]
    rw [hm.baseKey, hm.ratchetKey, hm.identityKey, archive_load_state]
    unfold KeSide.params at hi
    rw [hi]
    rfl
  unfold processKeyExchangeMessage processInitiate
  rw [hm.identityKey, ht, hst]
  have hini : m.isInitiate = true := by unfold KeyExchangeMessage.isInitiate; rw [hm.flags]; rfl
  rw [hini]
  simp only [Bool.not_true, Bool.false_eq_true, if_false, if_true, KeSide.params]
  rw [hm.sequence, g1, ok_bind]
  have : getSessionVersion ((archiveUnlessFresh (w.loadSession a)).setState s).sessionState = 3 := hv
  rw [this, g2]
  rfl

/-- The answer to our pending request. -/
theorem response_forward (hC : C.Lawful) {w : World} {a : Address} {m : KeyExchangeMessage} {x y : KeSide}
    {rnd : InitiateRand} {q f : Nat} {s : SessionState} (hy : y.Good)
    (hp : Pending (w.loadSession a).sessionState q y) (hf : f = 2 ∨ f = 6)
    (ht : w.isTrusted a.1 x.identity.pub = true) (hm : KeMessage m x q f)
    (hi : initializeSession {} (y.params x) rnd.sendSeed = .ok s) :
    processKeyExchangeMessage w a m rnd =
        ⟨[.session a ((archiveUnlessFresh (w.loadSession a)).setState s), .identity a.1 x.identity.pub],
          .ok none⟩ := by
  obtain ⟨e1, e2, e3, e4, e5⟩ := hp.read hC hy
  have hini : m.isInitiate = false := by
    unfold KeyExchangeMessage.isInitiate; rw [hm.flags]
    rcases hf with rfl | rfl <;> rfl
  unfold processKeyExchangeMessage processResponse
  rw [hm.identityKey, ht, hini]
  simp only [Bool.not_true, Bool.false_eq_true, if_false]
  rw [e1, e2, hm.sequence]
  simp only [Bool.not_true, Bool.false_or, bne_self_eq_false, Bool.false_eq_true, if_false]
  rw [e3, e4, e5]
  simp only [ok_bind]
  have hsig := hm.signature
  rw [hm.identityKey, hm.baseKey] at hsig
  rw [hm.baseKey, hm.ratchetKey, archive_load_state]
  unfold KeSide.params at hi
  rw [hi, ok_bind, hsig]
  rfl

end
end Axolotl
