import Verif.Proofs.ConvWorld
import Verif.Props.KeyExchange
import Verif.Props.Setup

/-! # C37: conversations over an unreliable network -/

namespace Axolotl
section
variable [C : Crypto]
open SessionState SessionBuilder RatchetingSession
open Spec (GoodPair Net Conv Step Steps Start header)

/-! ## Beginning -/

def startGhost {v : Kdf} (e0 e1 : Epoch v) : Ghost v :=
  { E := fun j => if j = 0 then e0 else e1, top := 1, n := fun _ => 0,
    full := fun b => if b then [⟨e0, 0, []⟩] else [], tag := fun _ _ => (0, 0) }

theorem start_ginv {cv : Conv} {ids : Bool → ECPub} {net : Net} {v : Kdf} {e0 e1 : Epoch v}
    (hids : ∀ b, (ids b).length = 32) (h0 : e0.Good) (h1 : e1.Good) (hn : e0.Next e1) (hne : e0.pub ≠ e1.pub)
    (hs : cv.start = fun s => if s then [e0.pub] else []) (hk : net.keys = [e0.pub, e1.pub])
    (hsent : net.sent = fun _ => []) (hacc : net.accepted = fun _ => []) : GInv cv ids net (startGhost e0 e1) := by
  have hlog : ∀ b, net.log b = [] := by intro b; unfold Net.log; rw [hacc]; rfl
  have hmem : ∀ b r, r ∈ (startGhost e0 e1).full b → r = ⟨e0, 0, []⟩ := by
    intro b r hr
    cases b with
    | true => exact List.mem_singleton.1 hr
    | false => cases hr
  refine ⟨hids, by simp [startGhost], ?_, ?_, ?_, ?_, ?_, ?_, ?_, ?_, ?_, ?_, ?_, ?_, ?_, ?_, ?_⟩
  · intro b; cases b <;> simp [startGhost, Ghost.e, off]
  · intro b; cases b <;> simp [startGhost, Ghost.e, off]
  · intro b; exact (by decide : 0 < 2 ^ 32)
  · intro j _; simp only [startGhost]; split
    · exact h0
    · exact h1
  · intro j hj
    have hj : j < 1 := hj
    obtain rfl : j = 0 := by omega
    exact hn
  · intro i j hi hj
    have hi : i ≤ 1 := hi
    have hj : j ≤ 1 := hj
    simp only [startGhost]
    intro e
    by_cases a : i = 0 <;> by_cases b : j = 0
    · omega
    · rw [if_pos a, if_neg b] at e; exact absurd e hne
    · rw [if_neg a, if_pos b] at e; exact absurd e.symm hne
    · omega
  · intro j _
    rw [hk]
    simp only [startGhost]
    split <;> simp
  · intro b t r hr
    cases b with
    | true =>
      cases t with
      | zero => simp [startGhost] at hr; subst hr; rfl
      | succ t => simp [startGhost] at hr
    | false => simp [startGhost] at hr
  · intro b
    rw [hlog, hs]
    cases b <;> rfl
  · intro b r hr
    rw [hmem b r hr, hlog]; rfl
  · intro b r hr k
    rw [hmem b r hr, hlog]
    simp
  · intro b r hr
    rw [hmem b r hr]; simp
  · intro b i c pt h
    rw [hsent] at h
    simp at h
  · intro b i j hi
    rw [hsent] at hi
    simp at hi
  · intro b i hi
    rw [hacc] at hi
    simp at hi

/-- The private keys of the setup: the base key `kb` of the initiator, the prekey `ks` of the peer, the one-time prekey `ko`. -/
structure SetupKeys (cv : Conv) (net : Net) (E : Epoch .v3) (kb ks ko : ECPriv) : Prop where
  identity : ∀ b, GoodPair (net.world b).identityKeyPair
  signed : cv.waits = true → ks = E.priv
  material : ∃ okm, Spec.SetupMaterial (net.world true).identityKeyPair.priv kb (net.world false).identityKeyPair.pub (C.genPub ks)
    (if cv.waits then some (C.genPub ko) else none) okm ∧ E.root = okm.take 32 ∧ E.chain = okm.drop 32
  begins : ∀ i, cv.preKeyId = some i → Spec.HoldsPreKey (net.world false) i ⟨C.genPub ko, ko⟩ ∧
    ∃ r p, (net.world true).sessions (cv.addr true) = some r ∧ r.sessionState.pendingPreKey = some p ∧
      p.preKeyId = some i ∧ p.baseKey = some (5 :: C.genPub kb)

theorem start_full (hC : C.Lawful) {cv : Conv} {net : Net} (h : Start cv net) :
    ∃ ids kb ks ko, (∀ b, (net.world b).identityKeyPair.pub = ids b) ∧ ∃ (hd : PkHeader) (g : Ghost .v3),
      (GInv cv ids net g ∧ WInv cv ids hd net g) ∧ SetupKeys cv net (g.E 0) kb ks ko := by
  cases h with
  | @bundle wA wB ab ba b spkId otId spk otk baseSeed ratchetSeed hA hB htA htB hidB h1 h2 hnew hne =>
    have hb := generate_good hC h1
    obtain ⟨secrets, s0, e1, e2, e3, e4, e5, e6⟩ := bundle_forward hC hA hB htA h1 h2
    have hge : (epoch0 spk secrets).Good := ⟨hB.goodSigned.priv, hB.goodSigned.pub⟩
    have hy := nextEpoch_good hC (epoch0 spk secrets) h2
    have hxy := nextEpoch_next hC hge h2
    have hAl := hA.identity.pub_len hC
    have hBl := hB.goodIdentity.pub_len hC
    let hd : PkHeader := ⟨wA.registrationId.toNat, some otId, spkId, (Curve.generateKeyPair baseSeed).pub⟩
    let r0 := (archiveUnlessFresh (wA.loadSession ab)).setState s0
    have hr0 : ((processPreKeyBundle wA ab b baseSeed ratchetSeed).final wA).sessions ab = some r0 := by
      rw [e2]; simp [Outcome.final, World.applyAll, World.apply, upd, r0]
    obtain ⟨otr, _, hot, hgot⟩ := hB.oneTimeStored _ rfl
    obtain ⟨secrets', f1, f2⟩ := secrets_agree hC (A := wA.identityKeyPair) (B := wB.identityKeyPair)
      (base := Curve.generateKeyPair baseSeed) (spk := spk) (otk := some otk) hA.identity hB.goodIdentity hb hB.goodSigned
      (by intro k hk; injection hk with hk; subst hk; exact hgot) spk.pub spk
    obtain rfl : secrets' = secrets := by
      rw [show (Option.map Prod.snd (some (otId, otk))) = some otk from rfl, f2] at e1
      exact Except.ok.inj e1
    have hmat := secrets_material hC.hmac_len f1
    refine ⟨fun s => if s then wA.identityKeyPair.pub else wB.identityKeyPair.pub, C.genPriv baseSeed, spk.priv, otk.priv, ?_, hd,
      startGhost (epoch0 spk secrets') (nextEpoch (epoch0 spk secrets') ratchetSeed),
      ⟨start_ginv ?_ hge hy hxy hne rfl rfl rfl rfl, fun _ => rfl, ?_, ?_, ?_, ?_, ?_⟩, ?_, fun _ => rfl, ?_, ?_⟩
    · intro s; cases s
      · rfl
      · exact congrArg KeyPair.pub (final_identity _ _)
    · intro s; cases s
      · exact hBl
      · exact hAl
    · intro _
      refine ⟨?_, ?_, hB.signedRange, hb.pub_len hC⟩
      · have := hA.registration; show wA.registrationId.toNat < _; omega
      · intro i hi; injection hi with hi; subst hi; exact (hB.oneTimeStored _ rfl).2.1
    · intro s i c pt h; simp at h
    · intro _; exact ⟨htB, hidB⟩
    · intro s
      cases s with
      | true =>
        left
        exact ⟨r0, hr0, e3, Or.inr ⟨rfl, rfl, e4⟩, fun x => by cases x⟩
      | false =>
        right
        refine ⟨rfl, rfl, rfl, rfl, rfl, ?_, ⟨r0, hr0, e4⟩, hB.goodIdentity, rfl, hnew, hB.registrationRange, ?_⟩
        · intro i c pt h; simp at h
        · obtain ⟨_, _, g1, g2⟩ := hB.oneTimeStored _ rfl
          exact ⟨spk, otk, otId, secrets', rfl, rfl, rfl, hB.signedStored, hB.goodSigned, g1, g2, e1⟩
    · intro _ _
      refine ⟨rfl, rfl, rfl, rfl, ?_, ⟨r0, hr0, e4⟩, hB.goodIdentity, rfl, hnew, hB.registrationRange, ?_⟩
      · intro i c pt h; simp at h
      · obtain ⟨_, _, g1, g2⟩ := hB.oneTimeStored _ rfl
        exact ⟨spk, otk, otId, secrets', rfl, rfl, rfl, hB.signedStored, hB.goodSigned, g1, g2, e1⟩
    · intro s; cases s
      · exact hB.goodIdentity
      · show GoodPair ((processPreKeyBundle wA ab b baseSeed ratchetSeed).final wA).identityKeyPair
        rw [final_identity]; exact hA.identity
    · obtain ⟨okm, m1, m2, m3⟩ := hmat
      refine ⟨okm, ?_, m2, m3⟩
      show Spec.SetupMaterial ((processPreKeyBundle wA ab b baseSeed ratchetSeed).final wA).identityKeyPair.priv _ _ _ _ _
      rw [final_identity, ← hB.goodSigned.pub]
      show Spec.SetupMaterial _ _ _ _ (some (C.genPub otk.priv)) _
      rw [← hgot.pub]
      exact m1
    · intro i hi
      injection hi with hi
      subst hi
      refine ⟨?_, r0, _, hr0, e4.pending, rfl, rfl⟩
      rw [← hgot.pub]; exact hot
  | @exchange wA wB ab ba rnd bs rs ss rndB rndA ask answer lt k1 k2 hke hpend hask hans hlt hk1 hk2 hne =>
    obtain ⟨ask', answer', rA, rB, secrets, q1, q2, q3, q4, q5, q6⟩ := exchange_run hC hke hpend
    rw [hask] at q1
    obtain rfl : ask = ask' := Except.ok.inj q1
    rw [q3] at hans
    obtain rfl : answer' = answer := Option.some.inj (Except.ok.inj hans)
    have hsA : ((processKeyExchangeMessage ((processInitKeyExchangeMessage wA ab rnd bs rs ss).final wA) ab answer' rndA).final
        ((processInitKeyExchangeMessage wA ab rnd bs rs ss).final wA)).sessions ab = some rA := by
      rw [q5]; simp [Outcome.final, World.applyAll, World.apply, upd]
    have hsB : ((processKeyExchangeMessage wB ba ask rndB).final wB).sessions ba = some rB := by
      rw [q3]; simp [Outcome.final, World.applyAll, World.apply, upd]
    have hAl := hke.idA.pub_len hC
    have hBl := hke.idB.pub_len hC
    rcases q6 with q6 | q6
    · obtain rfl : true = lt := by
        have := q6.order.1
        rw [show Curve.pubLt (Curve.generateKeyPair bs).pub (Curve.generateKeyPair rndB.baseSeed).pub = .ok lt from hlt] at this
        exact (Except.ok.inj this).symm
      have hge : (epoch0 (Curve.generateKeyPair rndB.ratchetSeed) secrets).Good :=
        ⟨(generate_good hC hke.seed5).priv, (generate_good hC hke.seed5).pub⟩
      have hy := nextEpoch_good hC (epoch0 (Curve.generateKeyPair rndB.ratchetSeed) secrets) hke.seed8
      have hxy := nextEpoch_next hC hge hke.seed8
      subst hk1 hk2
      refine ⟨fun s => if s then wA.identityKeyPair.pub else wB.identityKeyPair.pub, C.genPriv bs, C.genPriv rndB.baseSeed, [], ?_, ⟨0, none, 0, []⟩,
        startGhost (epoch0 (Curve.generateKeyPair rndB.ratchetSeed) secrets)
          (nextEpoch (epoch0 (Curve.generateKeyPair rndB.ratchetSeed) secrets) rndA.sendSeed),
        ⟨start_ginv ?_ hge hy hxy hne rfl rfl rfl rfl, fun _ => rfl, ?_, ?_, ?_, ?_, (fun x => by cases x)⟩, ?_, (fun x => by cases x), ?_, (fun i hi => by cases hi)⟩
      · intro s; cases s
        · exact congrArg KeyPair.pub (final_identity _ _)
        · exact congrArg KeyPair.pub ((final_identity _ _).trans (final_identity _ _))
      · intro s; cases s
        · exact hBl
        · exact hAl
      · intro x; cases x
      · intro s i c pt h; simp at h
      · intro x; cases x
      · intro s
        left
        cases s with
        | true => exact ⟨rA, hsA, q6.initiator, Or.inl q6.noPreKey.1, fun x => by cases x⟩
        | false => exact ⟨rB, hsB, q6.answerer, Or.inl q6.noPreKey.2, fun _ x => by cases x⟩
      · intro s; cases s
        · show GoodPair ((processKeyExchangeMessage wB ba ask rndB).final wB).identityKeyPair
          rw [final_identity]; exact hke.idB
        · show GoodPair ((processKeyExchangeMessage _ ab answer' rndA).final _).identityKeyPair
          rw [final_identity, final_identity]; exact hke.idA
      · obtain ⟨okm, m1, m2, m3⟩ := q6.material
        refine ⟨okm, ?_, m2, m3⟩
        show Spec.SetupMaterial ((processKeyExchangeMessage _ ab answer' rndA).final _).identityKeyPair.priv _
          ((processKeyExchangeMessage wB ba ask rndB).final wB).identityKeyPair.pub _ _ _
        rw [final_identity, final_identity, final_identity]
        exact m1
    · obtain rfl : false = lt := by
        have := q6.order.2
        rw [show Curve.pubLt (Curve.generateKeyPair bs).pub (Curve.generateKeyPair rndB.baseSeed).pub = .ok lt from hlt] at this
        exact (Except.ok.inj this).symm
      have hge : (epoch0 (Curve.generateKeyPair rs) secrets).Good :=
        ⟨(generate_good hC hke.seed2).priv, (generate_good hC hke.seed2).pub⟩
      have hy := nextEpoch_good hC (epoch0 (Curve.generateKeyPair rs) secrets) hke.seed6
      have hxy := nextEpoch_next hC hge hke.seed6
      subst hk1 hk2
      refine ⟨fun s => if s then wB.identityKeyPair.pub else wA.identityKeyPair.pub, C.genPriv rndB.baseSeed, C.genPriv bs, [], ?_, ⟨0, none, 0, []⟩,
        startGhost (epoch0 (Curve.generateKeyPair rs) secrets)
          (nextEpoch (epoch0 (Curve.generateKeyPair rs) secrets) rndB.sendSeed),
        ⟨start_ginv ?_ hge hy hxy hne rfl rfl rfl rfl, fun _ => rfl, ?_, ?_, ?_, ?_, (fun x => by cases x)⟩, ?_, (fun x => by cases x), ?_, (fun i hi => by cases hi)⟩
      · intro s; cases s
        · exact congrArg KeyPair.pub ((final_identity _ _).trans (final_identity _ _))
        · exact congrArg KeyPair.pub (final_identity _ _)
      · intro s; cases s
        · exact hAl
        · exact hBl
      · intro x; cases x
      · intro s i c pt h; simp at h
      · intro x; cases x
      · intro s
        left
        cases s with
        | true => exact ⟨rB, hsB, q6.initiator, Or.inl q6.noPreKey.1, fun x => by cases x⟩
        | false => exact ⟨rA, hsA, q6.answerer, Or.inl q6.noPreKey.2, fun _ x => by cases x⟩
      · intro s; cases s
        · show GoodPair ((processKeyExchangeMessage _ ab answer' rndA).final _).identityKeyPair
          rw [final_identity, final_identity]; exact hke.idA
        · show GoodPair ((processKeyExchangeMessage wB ba ask rndB).final wB).identityKeyPair
          rw [final_identity]; exact hke.idB
      · obtain ⟨okm, m1, m2, m3⟩ := q6.material
        refine ⟨okm, ?_, m2, m3⟩
        show Spec.SetupMaterial ((processKeyExchangeMessage wB ba ask rndB).final wB).identityKeyPair.priv _
          ((processKeyExchangeMessage _ ab answer' rndA).final _).identityKeyPair.pub _ _ _
        rw [final_identity, final_identity, final_identity]
        exact m1

theorem start_at (hC : C.Lawful) {cv : Conv} {net : Net} (h : Start cv net) :
    ∃ ids, (∀ b, (net.world b).identityKeyPair.pub = ids b) ∧ ConvAt .v3 ids cv net := by
  obtain ⟨ids, _, _, _, h1, hd, g, h2, _⟩ := start_full hC h
  exact ⟨ids, h1, hd, g, h2⟩

theorem start_inv (hC : C.Lawful) {cv : Conv} {net : Net} (h : Start cv net) : ConvInv cv net := by
  obtain ⟨ids, hid, h⟩ := start_at hC h
  exact ⟨.v3, ids, fun _ => hid, h⟩

theorem steps_inv (hC : C.Lawful) {cv : Conv} {n m : Net} (h : Steps cv n m) (hn : ConvInv cv n) : ConvInv cv m := by
  induction h with
  | refl => exact hn
  | step _ hs ih =>
    cases hs with
    | send h1 h2 h3 => exact conv_send hC ih h1 h2 h3
    | deliver h1 h2 h3 h4 h5 => exact (conv_deliver hC ih _ h1 h2 h3 h4 h5).1
    | other h1 h2 h3 => exact conv_other ih h1 h2 h3

/-- **C37.** In any conversation, after any number of messages in both directions, delivered in any order, with
losses, repetitions and unrelated calls in between: a message not yet accepted, whose chain is not among
those dropped and which is at most 2000 ahead, decrypts to exactly the plaintext that was encrypted; and a
message already accepted is refused as a duplicate, leaving sessions and prekeys as they were. -/
theorem C37_conversation (hC : C.Lawful) {cv : Conv} {n0 n : Net} (h0 : Start cv n0) (h : Steps cv n0 n)
    {b : Bool} {i : Nat} {c : Ciphertext} {pt : Bytes} (hi : (n.sent (!b))[i]? = some (c, pt))
    {seed : Bytes} (hseed : seed.length = 32) (hfresh : C.genPub (C.genPriv seed) ∉ n.keys) (seeds : Nat → Bytes) :
    let o := Spec.receive (n.world b) (cv.addr b) c.getType c.serialize seed seeds
    (i ∉ n.accepted b → n.inLimits cv b (header c) → o.result = .ok pt) ∧
    (i ∈ n.accepted b → n.remembered cv b (header c) →
      o.result = .error .duplicateMessage ∧ (o.final (n.world b)).sessions = (n.world b).sessions ∧
      (o.final (n.world b)).preKeys = (n.world b).preKeys) := by
  have hinv := steps_inv hC h (start_inv hC h0)
  intro o
  constructor
  · intro ha hl
    exact (conv_deliver hC hinv seeds hi (fun _ => hl) (fun x => absurd x ha) hseed hfresh).2.1 ha
  · intro ha hr
    exact (conv_deliver hC hinv seeds hi (fun x => absurd ha x) (fun _ => hr) hseed hfresh).2.2 ha

theorem conv_can_send (hC : C.Lawful) {v : Kdf} {ids : Bool → ECPub} {cv : Conv} {n : Net} (h : ConvAt v ids cv n) {b : Bool}
    (hb : cv.waits = true → b = false → n.accepted false ≠ []) {r : SessionRecord}
    (hr : (n.world b).sessions (cv.addr b) = some r) {pt : Bytes} (hpt : pt.length < 2 ^ 62) :
    (∃ c, (SessionCipher.encrypt (n.world b) (cv.addr b) pt).result = .ok c) ↔
      ∃ s k, r.sessionState.senderChain = some s ∧ s.chainKey = some k ∧ (k.index.getD 0) + 1 < 2 ^ 32 := by
  obtain ⟨hd, g, hg, hw⟩ := h
  rcases hw.sides b with ho | ⟨hb', hwt⟩
  rotate_left
  · exact absurd hwt.accepted (hb hwt.waits hb')
  have hn : ∀ s k, r.sessionState.senderChain = some s → s.chainKey = some k → k.index.getD 0 = g.n b := by
    obtain ⟨r', q1, q2, _⟩ := ho
    rw [hr] at q1
    obtain rfl := Option.some.inj q1
    intro s k h1 h2
    rw [q2.sender] at h1
    obtain rfl := Option.some.inj h1
    obtain rfl := Option.some.inj h2
    rfl
  constructor
  · rintro ⟨c, hc⟩
    have hl := ho.limit hc
    obtain ⟨r', q1, q2, _⟩ := ho
    rw [hr] at q1
    obtain rfl := Option.some.inj q1
    exact ⟨_, _, q2.sender, rfl, hl⟩
  · rintro ⟨s, k, h1, h2, h3⟩
    rw [hn s k h1 h2] at h3
    obtain ⟨c, r', e1, _⟩ := ho.encrypt hg hw.v3 hw.hdr hC h3 hpt
    exact ⟨c, by rw [e1]⟩

/-- **C37**, sending: each side can go on sending in any state of a conversation (side `false` once the session
exists); only a send counter at its last value stops it. -/
theorem C37_can_send (hC : C.Lawful) {cv : Conv} {n0 n : Net} (h0 : Start cv n0) (h : Steps cv n0 n) {b : Bool}
    (hb : cv.waits = true → b = false → n.accepted false ≠ []) {r : SessionRecord}
    (hr : (n.world b).sessions (cv.addr b) = some r) {pt : Bytes} (hpt : pt.length < 2 ^ 62) :
    (∃ c, (SessionCipher.encrypt (n.world b) (cv.addr b) pt).result = .ok c) ↔
      ∃ s k, r.sessionState.senderChain = some s ∧ s.chainKey = some k ∧ (k.index.getD 0) + 1 < 2 ^ 32 := by
  obtain ⟨v, ids, _, hc⟩ := steps_inv hC h (start_inv hC h0)
  exact conv_can_send hC hc hb hr hpt

/-- **C37**, headers: no two messages of a conversation carry the same ratchet key and counter. -/
theorem C37_headers_distinct (hC : C.Lawful) {cv : Conv} {n0 n : Net} (h0 : Start cv n0) (h : Steps cv n0 n)
    {b : Bool} {i j : Nat} {c c' : Ciphertext} {pt pt' : Bytes} (hi : (n.sent b)[i]? = some (c, pt))
    (hj : (n.sent b)[j]? = some (c', pt')) (he : header c = header c') : i = j := by
  obtain ⟨v, ids, _, hd, g, hg, hw⟩ := steps_inv hC h (start_inv hC h0)
  exact hg.header_inj hi hj he

end

/-! ## Non-vacuity: a run over the toy primitives -/

section
attribute [local instance] toy
open Example
open Spec (GoodPair Net Conv Step Steps Start header)

instance (cv : Conv) (n : Net) (b : Bool) (h : ECPub × Nat) : Decidable (n.inLimits cv b h) := by
  unfold Net.inLimits Spec.retained; infer_instance
instance (cv : Conv) (n : Net) (b : Bool) (h : ECPub × Nat) : Decidable (n.remembered cv b h) := by
  unfold Net.remembered Spec.retained; infer_instance

def convCv : Conv :=
  { addr := fun s => if s then bobAddr else aliceAddr, start := fun s => if s then [(pair 22).pub] else [],
    waits := true, preKeyId := some 31 }
def conv0 : Net :=
  { world := fun s =>
      if s then (SessionBuilder.processPreKeyBundle alice0 bobAddr bobBundle (key 41) (key 42)).final alice0 else bob0,
    sent := fun _ => [], accepted := fun _ => [],
    keys := [(pair 22).pub, toy.genPub (toy.genPriv (key 42))] }

theorem conv_start : Start convCv conv0 :=
  Start.bundle (wA := alice0) (wB := bob0) (ab := bobAddr) (ba := aliceAddr) (b := bobBundle) (spkId := 22)
    (otId := 31) (spk := pair 22) (otk := pair 31) (baseSeed := key 41) (ratchetSeed := key 42)
    contact_example.self contact_example.published contact_example.trustA
    (by
      intro saved h
      show tofu saved _ _ = true
      unfold tofu
      rcases h with h | h
      · rw [h]
      · rw [h]; simp)
    (Or.inl rfl) rfl rfl (by intro r hr; cases hr) (by decide)

def convSend (cv : Conv) (n : Net) (b : Bool) (pt : Bytes) : Option Net :=
  match (SessionCipher.encrypt (n.world b) (cv.addr b) pt).result with
  | .error _ => none
  | .ok c => if (cv.waits = true → b = false → n.accepted false ≠ []) ∧ pt.length < 2 ^ 62 then
      some { n with
        world := upd n.world b ((SessionCipher.encrypt (n.world b) (cv.addr b) pt).final (n.world b)),
        sent := upd n.sent b (n.sent b ++ [(c, pt)]) }
    else none

def convDeliver (cv : Conv) (n : Net) (b : Bool) (i : Nat) (seed : Bytes) : Option Net :=
  match (n.sent (!b))[i]? with
  | none => none
  | some (c, _) =>
    if (i ∉ n.accepted b → n.inLimits cv b (header c)) ∧ (i ∈ n.accepted b → n.remembered cv b (header c)) ∧
        seed.length = 32 ∧ toy.genPub (toy.genPriv seed) ∉ n.keys then
      some { n with
        world := upd n.world b
          ((Spec.receive (n.world b) (cv.addr b) c.getType c.serialize seed (fun _ => [])).final (n.world b)),
        accepted := upd n.accepted b (if i ∈ n.accepted b then n.accepted b else n.accepted b ++ [i]),
        keys := toy.genPub (toy.genPriv seed) :: n.keys }
    else none

theorem convSend_step {cv : Conv} {n n' : Net} {b : Bool} {pt : Bytes} (h : convSend cv n b pt = some n') : Step cv n n' := by
  unfold convSend at h
  split at h
  · cases h
  · rename_i c hc
    split at h
    · rename_i hcond
      rw [← Option.some.inj h]
      exact Step.send hcond.1 hcond.2 hc
    · cases h

theorem convDeliver_step {cv : Conv} {n n' : Net} {b : Bool} {i : Nat} {seed : Bytes} (h : convDeliver cv n b i seed = some n') :
    Step cv n n' := by
  unfold convDeliver at h
  split at h
  · cases h
  · rename_i c pt hc
    split at h
    · rename_i hcond
      rw [← Option.some.inj h]
      exact Step.deliver hc hcond.1 hcond.2.1 hcond.2.2.1 hcond.2.2.2
    · cases h

/-- Alice sends two messages; the second one arrives, twice; Bob replies twice; the second reply arrives. -/
def convRun : Option Net :=
  ((convSend convCv conv0 true [104, 105]).bind fun n => (convSend convCv n true [104, 111]).bind fun n =>
    (convDeliver convCv n false 1 (key 51)).bind fun n => (convDeliver convCv n false 1 (key 52)).bind fun n =>
    (convSend convCv n false [121, 111]).bind fun n => (convSend convCv n false [121, 121]).bind fun n =>
    convDeliver convCv n true 1 (key 53))

theorem convRun_steps {n : Net} (h : convRun = some n) : Steps convCv conv0 n := by
  unfold convRun at h
  simp only [Option.bind_eq_some_iff] at h
  obtain ⟨a1, h1, a2, h2, a3, h3, a4, h4, a5, h5, a6, h6, h7⟩ := h
  exact ((((((Steps.refl.step (convSend_step h1)).step (convSend_step h2)).step (convDeliver_step h3)).step
    (convDeliver_step h4)).step (convSend_step h5)).step (convSend_step h6)).step (convDeliver_step h7)

/-- What the example shows of the final state: the first message of either side is new to the other and within
the limits, the second is accepted and remembered. -/
def convCheck (n : Net) : Bool :=
  n.accepted false == [1] && n.accepted true == [1] &&
  [false, true].all fun b =>
    ((n.sent (!b))[0]?.any fun m => decide (n.inLimits convCv b (header m.1))) &&
    ((n.sent (!b))[1]?.any fun m => decide (n.remembered convCv b (header m.1))) &&
    decide (toy.genPub (toy.genPriv (key 54)) ∉ n.keys)

theorem convRun_check : convRun.any convCheck = true := by decide +kernel

/-- The hypotheses of C37 are met. -/
example : ∃ n, Start convCv conv0 ∧ Steps convCv conv0 n ∧ convCheck n = true := by
  have h := convRun_check
  cases hr : convRun with
  | none => rw [hr] at h; cases h
  | some n => rw [hr] at h; exact ⟨n, conv_start, convRun_steps hr, h⟩

/-- A conversation may also begin with a key exchange. -/
example : ∃ cv n, Start cv n ∧ cv.waits = false := by
  obtain ⟨ask, answer, _, _, _, q1, _, q3, _⟩ := exchange_run toy_lawful exchange_example exchange_example_pending
  exact ⟨_, _, Start.exchange (lt := true) exchange_example exchange_example_pending q1 (by rw [q3])
    (by decide +kernel) rfl rfl (by decide +kernel), rfl⟩

end
end Axolotl
