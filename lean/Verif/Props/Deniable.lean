import Verif.Spec.Deniable
import Verif.Props.Calls
import Verif.Props.Setup
import Verif.Props.SetupState

/-!
# Conversations can be denied

Messages of a session are authenticated with keys that both sides have, so whoever reads a conversation could have written
it.  Key exchange messages and group messages are signed.
-/

namespace Axolotl
open Spec SessionBuilder
section
variable [C : Crypto]

/-! ## What the other side would have -/

theorem recipientMaterial_eq {b spk : ECPriv} {otk : Option ECPriv} {idA base : ECPub} {okm : Bytes}
    (h : AnswerMaterial b spk otk idA base okm) : recipientMaterial b spk otk idA base = some okm := by
  obtain ⟨d1, d2, d3, d4, h1, h2, h3, h4, rfl⟩ := h
  unfold recipientMaterial
  rw [h1, h2, h3]
  cases otk with
  | none => obtain rfl : d4 = [] := h4; rfl
  | some k =>
    show (C.dh k base).bind _ = _
    rw [show C.dh k base = some d4 from h4]; rfl

theorem initiatorMaterial_eq {a base : ECPriv} {idB spk : ECPub} {otk : Option ECPub} {okm : Bytes}
    (h : SetupMaterial a base idB spk otk okm) : initiatorMaterial a base idB spk otk = some okm := by
  obtain ⟨d1, d2, d3, d4, h1, h2, h3, h4, rfl⟩ := h
  unfold initiatorMaterial
  rw [h1, h2, h3]
  cases otk with
  | none => obtain rfl : d4 = [] := h4; rfl
  | some k =>
    show (C.dh base k).bind _ = _
    rw [show C.dh base k = some d4 from h4]; rfl

/-- Both sides have the same key material. -/
theorem material_swap (hC : C.Lawful) {a base b spk : KeyPair} {otk : Option KeyPair} {okm : Bytes} (ha : GoodPair a)
    (hbase : GoodPair base) (hb : GoodPair b) (hs : GoodPair spk) (ho : ∀ k, otk = some k → GoodPair k)
    (h : SetupMaterial a.priv base.priv b.pub spk.pub (otk.map KeyPair.pub) okm) :
    AnswerMaterial b.priv spk.priv (otk.map KeyPair.priv) a.pub base.pub okm := by
  obtain ⟨d1, d2, d3, d4, h1, h2, h3, h4, rfl⟩ := h
  obtain ⟨s1, a1, b1⟩ := agreement_comm hC ha hs
  obtain ⟨s2, a2, b2⟩ := agreement_comm hC hbase hb
  obtain ⟨s3, a3, b3⟩ := agreement_comm hC hbase hs
  obtain rfl := Option.some.inj (a1.symm.trans h1)
  obtain rfl := Option.some.inj (a2.symm.trans h2)
  obtain rfl := Option.some.inj (a3.symm.trans h3)
  refine ⟨_, _, _, d4, b1, b2, b3, ?_, rfl⟩
  cases otk with
  | none => exact h4
  | some k =>
    obtain ⟨s4, a4, b4⟩ := agreement_comm hC hbase (ho k rfl)
    obtain rfl := Option.some.inj (a4.symm.trans (show C.dh base.priv k.pub = some d4 from h4))
    exact b4

/-- **C91, the initiator's session.**  The session that processing a published bundle creates is what the owner of the
bundle gets from the private keys of the bundle and the initiator's *public* identity key. -/
theorem C91_initiator (hC : C.Lawful) {wA wB : World} {ab : Address} {b : PreKeyBundle} {spkId : Nat}
    {spk : KeyPair} {otk : Option (Nat × KeyPair)} {baseSeed ratchetSeed : Bytes}
    (hA : GoodSelf wA) (hB : Published wB b spkId spk otk) (htr : wA.isTrusted ab.1 b.identityKey = true)
    (h1 : baseSeed.length = 32) (h2 : ratchetSeed.length = 32)
    (hl : ∀ r, wA.sessions ab = some r → r.previousStates.length ≤ 40) :
    ∃ r s, (processPreKeyBundle wA ab b baseSeed ratchetSeed) = ⟨[.session ab r, .identity ab.1 b.identityKey], .ok ()⟩ ∧
      forgedInitiator wA.identityKeyPair.pub wA.registrationId.toNat wB.registrationId.toNat wB.identityKeyPair spkId spk otk
        baseSeed ratchetSeed = some s ∧
      withNewSession (wA.sessions ab) s r := by
  have hok : (processPreKeyBundle wA ab b baseSeed ratchetSeed).result = .ok () := by
    obtain ⟨_, _, _, e, _⟩ := bundle_forward hC hA hB htr h1 h2
    rw [e]
  obtain ⟨spk', okm, secret, new, n1, n2, pid, g1, g2, g3, g4, g5, g6, g7, g8, g9⟩ :=
    bundle_exact hC.hmac_len wA ab hl b baseSeed ratchetSeed hok
  rw [hB.signedKey] at g1
  obtain rfl := Option.some.inj g1
  have hbase : GoodPair (Curve.generateKeyPair baseSeed) := generate_good hC h1
  have hrat : GoodPair (Curve.generateKeyPair ratchetSeed) := generate_good hC h2
  have hot : ∀ k, otk.map Prod.snd = some k → GoodPair k := by
    intro k hk
    cases ho : otk with
    | none => rw [ho] at hk; cases hk
    | some p => rw [ho] at hk; obtain rfl := Option.some.inj hk; exact (hB.oneTimeStored p ho).2.2.2
  have hpre : b.preKey = (otk.map Prod.snd).map KeyPair.pub := by
    rw [hB.oneTime, Option.map_map]; rfl
  rw [hB.identity, hpre] at g2
  have hm := recipientMaterial_eq (material_swap hC (base := Curve.generateKeyPair baseSeed) hA.identity hbase
    hB.goodIdentity hB.goodSigned hot g2)
  obtain ⟨s2, a2, b2⟩ := agreement_comm hC hrat hB.goodSigned
  obtain rfl := Option.some.inj (a2.symm.trans g3)
  have hpid : pid = otk.map Prod.fst := by
    cases ho : otk with
    | none => exact g6 (by rw [hB.oneTime, ho]; rfl)
    | some p =>
      obtain ⟨n, e1, e2⟩ := g7 p.2.pub (by rw [hB.oneTime, ho]; rfl)
      have := (hB.oneTimeStored p ho).1
      rw [e2]
      show some n = some p.1
      congr 1
      omega
  refine ⟨new, _, ?_, ?_, g9⟩
  · cases hx : processPreKeyBundle wA ab b baseSeed ratchetSeed with
    | mk ws res =>
      rw [hx] at g8 hok
      simp only at g8 hok
      rw [g8, hok]
  · unfold forgedInitiator
    rw [show otk.map (fun p => p.2.priv) = (otk.map Prod.snd).map KeyPair.priv by rw [Option.map_map]; rfl]
    simp only
    rw [show C.genPub (C.genPriv baseSeed) = (Curve.generateKeyPair baseSeed).pub from rfl, hm]
    rw [show C.genPub (C.genPriv ratchetSeed) = (Curve.generateKeyPair ratchetSeed).pub from rfl]
    simp only [Option.bind_eq_bind, Option.bind_some, b2]
    rw [hpid, hB.identity, hB.signedId]
    have := hB.registration
    congr 3 <;> omega

/-! ## The conversation that follows -/

/-- Calls in a session look only at the record of the session. -/
theorem session_call {a : Address} {c : Call} (hc : SessionCall a c) {w v : World}
    (h1 : w.loadSession a = v.loadSession a) (h2 : w.containsSession a = v.containsSession a) : c.run w = c.run v := by
  cases c with
  | encrypt x p =>
    obtain rfl : x = a := hc
    simp only [Call.run, SessionCipher.encrypt, h1]
  | decryptMsg x m s ss =>
    obtain rfl : x = a := hc
    simp only [Call.run, SessionCipher.decryptMsg, h1, h2]
  | decryptPkmsg => exact hc.elim
  | processBundle => exact hc.elim
  | processKeyExchange => exact hc.elim
  | initKeyExchange => exact hc.elim

theorem session_call_writes {a : Address} {c : Call} (hc : SessionCall a c) (w : World) :
    (c.run w).writes = [] ∨ ∃ r, (c.run w).writes = [.session a r] := by
  cases c with
  | encrypt x p =>
    obtain rfl : x = a := hc
    simp only [Call.run, Call.mapOutcome, SessionCipher.encrypt]
    unfold Outcome.ofRes
    split
    · rename_i h
      obtain ⟨_, _, h⟩ := bind_eq_ok.1 h
      obtain ⟨h, _⟩ := Prod.mk.inj (Except.ok.inj h)
      exact .inr ⟨_, h.symm⟩
    · exact .inl rfl
  | decryptMsg x m s ss =>
    obtain rfl : x = a := hc
    simp only [Call.run, Call.mapOutcome, SessionCipher.decryptMsg]
    unfold Outcome.ofRes
    split
    · rename_i h
      split at h
      · cases h
      · obtain ⟨_, _, h⟩ := bind_eq_ok.1 h
        obtain ⟨h, _⟩ := Prod.mk.inj (Except.ok.inj h)
        exact .inr ⟨_, h.symm⟩
    · exact .inl rfl
  | decryptPkmsg => exact hc.elim
  | processBundle => exact hc.elim
  | processKeyExchange => exact hc.elim
  | initKeyExchange => exact hc.elim

theorem session_calls {a : Address} (cs : List Call) (hc : ∀ c ∈ cs, SessionCall a c) {w v : World}
    (h1 : w.loadSession a = v.loadSession a) (h2 : w.containsSession a = v.containsSession a) :
    Call.replies w cs = Call.replies v cs ∧ (Call.after w cs).loadSession a = (Call.after v cs).loadSession a := by
  induction cs generalizing w v with
  | nil => exact ⟨rfl, h1⟩
  | cons c cs ih =>
    have hr := session_call (hc c (List.mem_cons_self ..)) h1 h2
    have hn : (c.next w).loadSession a = (c.next v).loadSession a ∧
        (c.next w).containsSession a = (c.next v).containsSession a := by
      unfold Call.next Outcome.final
      rw [hr]
      rcases session_call_writes (hc c (List.mem_cons_self ..)) v with e | ⟨r, e⟩
      · rw [e]; exact ⟨h1, h2⟩
      · rw [e]
        simp [World.applyAll, World.apply, World.loadSession, World.containsSession, upd]
    obtain ⟨i1, i2⟩ := ih (fun c h => hc c (List.mem_cons_of_mem _ h)) hn.1 hn.2
    refine ⟨?_, i2⟩
    show (c.run w).result :: _ = (c.run v).result :: _
    rw [hr, i1]

/-- **C91, the transcript.**  Everything the initiator of a first contact ever sends in the session, and everything it
reads, whatever is delivered to it: the owner of the bundle gets the same, byte for byte, from the session it has written
itself.  `wF` are any stores, with any identity key pair. -/
theorem C91_transcript (hC : C.Lawful) {wA wB : World} {ab : Address} {b : PreKeyBundle} {spkId : Nat}
    {spk : KeyPair} {otk : Option (Nat × KeyPair)} {baseSeed ratchetSeed : Bytes}
    (hA : GoodSelf wA) (hB : Published wB b spkId spk otk) (htr : wA.isTrusted ab.1 b.identityKey = true)
    (h1 : baseSeed.length = 32) (h2 : ratchetSeed.length = 32) (hfirst : wA.sessions ab = none)
    (wF : World) (cs : List Call) (hcs : ∀ c ∈ cs, SessionCall ab c) :
    ∃ s, forgedInitiator wA.identityKeyPair.pub wA.registrationId.toNat wB.registrationId.toNat wB.identityKeyPair spkId spk
        otk baseSeed ratchetSeed = some s ∧
      Call.replies ((processPreKeyBundle wA ab b baseSeed ratchetSeed).final wA) cs =
        Call.replies (withSession wF ab s) cs := by
  obtain ⟨r, s, e1, e2, e3⟩ := C91_initiator hC hA hB htr h1 h2 (by rw [hfirst]; intro r h; cases h)
  refine ⟨s, e2, (session_calls cs hcs ?_ ?_).1⟩
  · rw [e1]
    rw [hfirst] at e3
    obtain ⟨q1, q2⟩ := e3
    simp only [Outcome.final, World.applyAll, List.foldl, World.apply, World.loadSession, withSession, upd, if_pos]
    obtain ⟨f, x, y⟩ := r
    simp only at q1 q2
    rw [q1, q2]
  · rw [e1]
    simp [Outcome.final, World.applyAll, World.apply, World.containsSession, withSession, upd]

/-- **C91, impersonation.**  Whoever has the private keys of a bundle (its owner, or a thief) can write the owner a first
message as from anybody whose public identity key `a.pub` the owner trusts: it is read, and `a.pub` is saved as its
sender's key.  `a` does nothing and `a.priv` is not used; `wF` and `ab` are any stores and address of the writer. -/
theorem C91_impersonate (hC : C.Lawful) {wB : World} {ab ba : Address} {b : PreKeyBundle} {spkId : Nat}
    {spk otk : KeyPair} {otId : Nat} {baseSeed ratchetSeed bobSeed pt : Bytes} {a : KeyPair} {regA : Nat}
    (ha : GoodPair a) (hreg : regA < 2 ^ 32) (hB : Published wB b spkId spk (some (otId, otk)))
    (htr : wB.isTrusted ba.1 a.pub = true) (h1 : baseSeed.length = 32) (h2 : ratchetSeed.length = 32)
    (h3 : bobSeed.length = 32) (hnew : ∀ r, wB.sessions ba = some r → ¬ knowsBaseKey r 3 (C.genPub (C.genPriv baseSeed)))
    (hpt : pt.length < 2 ^ 62) (seeds : Nat → Bytes) (wF : World) :
    ∃ s c p', forgedInitiator a.pub regA wB.registrationId.toNat wB.identityKeyPair spkId spk (some (otId, otk)) baseSeed
        ratchetSeed = some s ∧
      (SessionCipher.encrypt (withSession wF ab s) ab pt).result = .ok c ∧
      PreKeyWhisperMessage.parse c.serialize = .ok p' ∧
      let o := SessionCipher.decryptPkmsg wB ba p' bobSeed seeds
      o.result = .ok pt ∧ (o.final wB).identities ba.1 = some a.pub ∧ ((o.final wB).sessions ba).isSome = true := by
  let wA : World := { identityKeyPair := a, registrationId := regA, policy := fun _ _ _ => true, identities := fun _ => none,
                      sessions := fun _ => none, preKeys := fun _ => none, signedPreKeys := fun _ => none }
  have hA : GoodSelf wA := ⟨ha, by show (0 : Int) ≤ regA ∧ (regA : Int) < 2 ^ 32; omega⟩
  have hF : FirstContact wA wB ab ba b spkId spk (some (otId, otk)) baseSeed ratchetSeed bobSeed pt :=
    ⟨hA, hB, rfl, htr, h1, h2, h3, hnew, hpt⟩
  obtain ⟨s, e1, e2⟩ := C91_transcript hC hA hB rfl h1 h2 rfl wF [.encrypt ab pt]
    (by intro c hc; obtain rfl := List.mem_singleton.1 hc; rfl)
  obtain ⟨r0, s0, rA, sA, p, p', okm, k1, rfl, k2, rfl, k3, _, _, k6⟩ := contact_run hC seeds hF
  obtain ⟨rB, sB, g1, rfl, _⟩ := k6 p' (Or.inr ⟨rfl, by simp⟩)
  refine ⟨s, .preKey p, p', e1, ?_, k3, ?_⟩
  · have e2 := (List.cons.inj e2).1
    simp only [Call.run, Call.mapOutcome, k2] at e2
    cases hx : (SessionCipher.encrypt (withSession wF ab s) ab pt).result with
    | error e => rw [hx] at e2; cases e2
    | ok c =>
      rw [hx] at e2
      simp only [Except.ok.injEq, Reply.ciphertext.injEq] at e2
      rw [e2]
  · dsimp only
    rw [g1]
    refine ⟨rfl, ?_, ?_⟩
    · unfold Spec.consumedId
      simp only [Option.map_some]
      split <;> simp [Outcome.final, World.applyAll, World.apply, upd, wA]
    · unfold Spec.consumedId
      simp only [Option.map_some]
      split <;> simp [Outcome.final, World.applyAll, World.apply, upd, wA]

/-! ## The recipient's session -/

/-- What is left of a state that only sends, once it has read the first message under a new ratchet key. -/
theorem accepts_first {s s' : SessionS} {m : WhisperMessage} {seed pt : Bytes} (h : Accepts s m seed pt s')
    (hr : s.receiverChains = []) (hm : m.counter = 0) :
    ∃ c d1 d2, s.senderChain = some c ∧ C.dh (c.senderRatchetKeyPrivate.getD []) m.senderRatchetKey = some d1 ∧
      C.dh (C.genPriv seed) m.senderRatchetKey = some d2 ∧
      s' = { s with
        rootKey := some (ratchetRoot (ratchetRoot (s.rootKey.getD []) d1) d2)
        receiverChains := [{
          senderRatchetKey := some (5 :: m.senderRatchetKey)
          chainKey := some { key := some (chainAt (ratchetChain (s.rootKey.getD []) d1) 1), index := some 1 } }]
        previousCounter := some (sendCounter s - 1)
        senderChain := some { c with
          senderRatchetKey := some (5 :: C.genPub (C.genPriv seed))
          senderRatchetKeyPrivate := some (C.genPriv seed)
          chainKey := startOf (ratchetChain (ratchetRoot (s.rootKey.getD []) d1) d2) }
        pendingPreKey := none } := by
  obtain @⟨s1, x, y, c, c', cipherKey, macKey, iv, them, me, body, h1, h2, h3, h4, h5, h6, h7, h8, h9, h10, h11, h12⟩ := h
  cases h3 with
  | known hc => rw [hr] at hc; cases hc
  | @ratchet c0 d1 d2 hno hs hd1 hd2 =>
    refine ⟨c0, d1, d2, hs, hd1, hd2, ?_⟩
    simp only [hr, List.nil_append] at h4
    have hx : x = [] ∧ y = [] ∧
        c = { senderRatchetKey := some (5 :: m.senderRatchetKey), chainKey := startOf (ratchetChain (s.rootKey.getD []) d1) } := by
      cases x with
      | nil =>
        obtain ⟨e1, e2⟩ := List.cons.inj h4
        exact ⟨rfl, e2.symm, e1.symm⟩
      | cons z zs =>
        obtain ⟨_, e2⟩ := List.cons.inj h4
        cases zs <;> cases e2
    obtain ⟨rfl, rfl, rfl⟩ := hx
    rw [hm] at h7
    cases h7 with
    | stored hlt => exact absurd hlt (Nat.not_lt_zero _)
    | ahead =>
      simp only [List.nil_append]
      rfl

/-- **C91, the recipient's session.**  The session the recipient has after reading the first message is what the sender
gets from its own private keys and the recipient's *public* keys. -/
theorem C91_recipient (hC : C.Lawful) {wA wB : World} {ab ba : Address} {b : PreKeyBundle} {spkId : Nat}
    {spk otk : KeyPair} {otId : Nat} {baseSeed ratchetSeed bobSeed pt : Bytes} (seeds : Nat → Bytes)
    (h : FirstContact wA wB ab ba b spkId spk (some (otId, otk)) baseSeed ratchetSeed bobSeed pt)
    (hfirst : wB.sessions ba = none) :
    ∃ c p' s r ws, (SessionCipher.encrypt ((processPreKeyBundle wA ab b baseSeed ratchetSeed).final wA) ab pt).result = .ok c ∧
      PreKeyWhisperMessage.parse c.serialize = .ok p' ∧
      forgedRecipient wA.identityKeyPair wA.registrationId.toNat wB.registrationId.toNat wB.identityKeyPair.pub spk.pub
        (some otk.pub) baseSeed ratchetSeed bobSeed = some s ∧
      SessionCipher.decryptPkmsg wB ba p' bobSeed seeds =
        ⟨[.identity ba.1 wA.identityKeyPair.pub, .session ba r] ++ ws, .ok pt⟩ ∧
      (∀ x ∈ ws, ∃ i, x = .removePreKey i) ∧ r.sessionState = s ∧ r.previousStates = [] := by
  obtain ⟨hA, hB, htA, htB, h1, h2, h3, hnew, hpt⟩ := h
  have hb := generate_good hC h1
  obtain ⟨secrets, s0, e1, e2, e3, e4, e5, e6⟩ := bundle_forward hC hA hB htA h1 h2
  have hy := nextEpoch_good hC (epoch0 spk secrets) h2
  have hok : PkHeader.Ok ⟨wA.registrationId.toNat, some otId, spkId, (Curve.generateKeyPair baseSeed).pub⟩ := by
    refine ⟨?_, ?_, hB.signedRange, hb.pub_len hC⟩
    · have := hA.registration; show wA.registrationId.toNat < _; omega
    · intro i hi; injection hi with hi; subst hi; exact (hB.oneTimeStored _ rfl).2.1
  obtain ⟨m, p, p', sA, g1, g2, g3, g4, g5, g6, g7⟩ :=
    send_prekey hC (hA.identity.pub_len hC) (hB.goodIdentity.pub_len hC) e3 hy (by decide) pt hpt hok e4
  let r0 := (archiveUnlessFresh (wA.loadSession ab)).setState s0
  have henc := encrypt_forward (r := r0) (w := (processPreKeyBundle wA ab b baseSeed ratchetSeed).final wA) (a := ab)
    (by rw [e2]; simp [Outcome.final, World.applyAll, World.apply, upd, r0]) g1
  have hF : FirstContact wA wB ab ba b spkId spk (some (otId, otk)) baseSeed ratchetSeed bobSeed pt :=
    ⟨hA, hB, htA, htB, h1, h2, h3, hnew, hpt⟩
  obtain ⟨_, _, _, _, q, q', okm', _, _, k2, _, k3, k4, _, k6⟩ := contact_run hC seeds hF
  rw [henc] at k2
  obtain rfl : p = q := by injection k2 with _ k2; injection k2 with k2; injection k2
  have hq : q' = p' := Except.ok.inj (k3.symm.trans g2.parse)
  subst hq
  obtain ⟨rB, sB, t1, _⟩ := k6 q' (Or.inr ⟨rfl, by simp⟩)
  obtain ⟨signed, sp, ot, okm, new, final, n1, f1, f2, _, f3, f4, f5, f6, f7, f8⟩ :=
    prekey_exact hC wB ba (by rw [hfirst]; intro r h; cases h) q' bobSeed seeds pt
      (by rintro ⟨r, hr, _⟩; rw [hfirst] at hr; cases hr) (by rw [t1])
  have hpair : ∀ {x y : Option Bytes} {k k' : KeyPair}, GoodPair k → x = some (5 :: k.pub) → y = some k.priv →
      PairOf x y k' → k' = k := by
    intro x y k k' hk hx hy ⟨⟨z, h1, h2⟩, h3⟩
    rw [hx] at h1
    rw [hy] at h3
    obtain ⟨_, rfl⟩ := List.cons.inj (Option.some.inj h1)
    obtain ⟨kp, kv⟩ := k'
    simp only [Option.getD_some] at h2 h3
    rw [List.take_of_length_le (Nat.le_of_eq (hk.pub_len hC))] at h2
    rw [h2, ← h3]
  obtain rfl : sp = spk := by
    obtain ⟨r, u1, u2, u3⟩ := hB.signedStored
    rw [g2.spk, u1] at f1
    obtain rfl := Option.some.inj f1
    exact hpair hB.goodSigned u2 u3 f2
  obtain rfl : ot = some otk := by
    obtain ⟨_, _, ⟨r, u1, u2, u3⟩, u4⟩ := hB.oneTimeStored _ rfl
    obtain ⟨r', k, v1, v2, v3⟩ := f3 otId g2.pk
    rw [u1] at v1
    obtain rfl := Option.some.inj v1
    rw [v3, hpair u4 u2 u3 v2]
  rw [show q'.identityKey = wA.identityKeyPair.pub from g2.ik, show q'.baseKey = (Curve.generateKeyPair baseSeed).pub from g2.bk]
    at f4
  have hans := recipientMaterial_eq (material_swap hC (base := Curve.generateKeyPair baseSeed) (otk := some otk) hA.identity hb
    hB.goodIdentity hB.goodSigned (by rintro k ⟨⟩; exact (hB.oneTimeStored _ rfl).2.2.2) k4)
  obtain rfl : okm = okm' := Option.some.inj ((recipientMaterial_eq f4).symm.trans hans)
  rw [hfirst] at f6
  obtain ⟨w1, w2⟩ := f6
  simp only at w2
  rcases f7 with ⟨ha, hp⟩ | ⟨k, x, hk, _⟩
  · rw [w1] at ha
    rw [g2.message'] at ha
    obtain ⟨c, d1, d2, z1, z2, z3, z4⟩ := accepts_first ha rfl g4.counter
    obtain rfl := Option.some.inj z1
    have hrat := generate_good hC h2
    rw [show m.senderRatchetKey = (Curve.generateKeyPair ratchetSeed).pub from g4.key] at z2 z3 z4
    obtain ⟨s1, a1, b1⟩ := agreement_comm hC hrat hB.goodSigned
    obtain rfl := Option.some.inj (b1.symm.trans z2)
    obtain ⟨s2, a2, b2⟩ := agreement_comm hC hrat (generate_good hC h3)
    obtain rfl := Option.some.inj (b2.symm.trans z3)
    refine ⟨.preKey p, q', final.sessionState, final,
      ((consumedId q'.preKeyId).map Write.removePreKey).toList, by rw [henc], k3, ?_, ?_, ?_, rfl, by rw [hp, w2]⟩
    · unfold forgedRecipient
      rw [initiatorMaterial_eq (otk := some otk.pub) k4]
      rw [show C.dh (C.genPriv ratchetSeed) sp.pub = _ from a1,
        show C.dh (C.genPriv ratchetSeed) (C.genPub (C.genPriv bobSeed)) = _ from a2]
      simp only [Option.bind_eq_bind, Option.bind_some]
      rw [z4, show q'.registrationId = _ from g2.reg, g2.bk, g2.ik]
      have : n1 = wB.registrationId.toNat := by omega
      rw [this]
      rfl
    · rw [t1] at f8 ⊢
      simp only at f8
      rw [f8, g2.ik]
    · intro x hx
      unfold consumedId at hx
      split at hx
      · cases hx
      · split at hx
        · cases hx
        · obtain rfl := List.mem_singleton.1 hx
          exact ⟨_, rfl⟩
  · rw [w2] at hk
    cases hk

omit C in
theorem removed_sessions (ws : List Write) (h : ∀ x ∈ ws, ∃ i, x = .removePreKey i) (w : World) :
    (ws.foldl World.apply w).sessions = w.sessions := by
  induction ws generalizing w with
  | nil => rfl
  | cons x ws ih =>
    obtain ⟨i, rfl⟩ := h x (List.mem_cons_self ..)
    exact ih (fun x hx => h x (List.mem_cons_of_mem _ hx)) _

/-- **C91, the recipient's transcript.**  Everything the recipient of a first message sends and reads in the session from
then on, byte for byte, from the session its peer has written. -/
theorem C91_transcript_recipient (hC : C.Lawful) {wA wB : World} {ab ba : Address} {b : PreKeyBundle} {spkId : Nat}
    {spk otk : KeyPair} {otId : Nat} {baseSeed ratchetSeed bobSeed pt : Bytes} (seeds : Nat → Bytes)
    (h : FirstContact wA wB ab ba b spkId spk (some (otId, otk)) baseSeed ratchetSeed bobSeed pt)
    (hfirst : wB.sessions ba = none) (wF : World) (cs : List Call) (hcs : ∀ c ∈ cs, SessionCall ba c) :
    ∃ c p' s, (SessionCipher.encrypt ((processPreKeyBundle wA ab b baseSeed ratchetSeed).final wA) ab pt).result = .ok c ∧
      PreKeyWhisperMessage.parse c.serialize = .ok p' ∧
      forgedRecipient wA.identityKeyPair wA.registrationId.toNat wB.registrationId.toNat wB.identityKeyPair.pub spk.pub
        (some otk.pub) baseSeed ratchetSeed bobSeed = some s ∧
      Call.replies ((SessionCipher.decryptPkmsg wB ba p' bobSeed seeds).final wB) cs =
        Call.replies (withSession wF ba s) cs := by
  obtain ⟨c, p', s, r, ws, e1, e2, e3, e4, e5, e6, e7⟩ := C91_recipient hC seeds h hfirst
  have hs : ((SessionCipher.decryptPkmsg wB ba p' bobSeed seeds).final wB).sessions ba = some r := by
    rw [e4]
    unfold Outcome.final World.applyAll
    rw [List.foldl_append]
    rw [removed_sessions ws e5]
    simp [World.apply, upd]
  refine ⟨c, p', s, e1, e2, e3, (session_calls cs hcs ?_ ?_).1⟩
  · unfold World.loadSession
    rw [hs]
    obtain ⟨f, x, y⟩ := r
    simp only at e6 e7
    rw [e6, e7]
    simp [withSession, World.apply, upd]
  · unfold World.containsSession
    rw [hs]
    simp [withSession, World.apply, upd]

/-! ## Whoever can read a message can write another in its place -/

omit C in
theorem newestFive_append_new {cs : List ChainS} {d c : ChainS} {x y : List ChainS} {eph : ECPub}
    (hno : ∀ z ∈ cs, ¬ KeyOf z.senderRatchetKey eph) (h : newestFive (cs ++ [d]) = x ++ c :: y)
    (hc : KeyOf c.senderRatchetKey eph) : c = d := by
  have hm : c ∈ newestFive (cs ++ [d]) := by rw [h]; simp
  rcases List.mem_append.1 (List.mem_of_mem_drop hm) with h | h
  · exact absurd hc (hno c h)
  · exact List.mem_singleton.1 h

omit C in
theorem position_getD (c : ChainS) : position c = (c.chainKey.getD {}).index.getD 0 := by
  unfold position; cases c.chainKey <;> rfl

omit C in
theorem chainKeyBytes_getD (c : ChainS) : chainKeyBytes c = (c.chainKey.getD {}).key.getD [] := by
  unfold chainKeyBytes; cases c.chainKey <;> rfl

/-- The keys under which a state reads a message are keys it offers, and another message under them is read as well. -/
theorem accepts_rewrite (hC : C.Lawful) {s s' : SessionS} {m : WhisperMessage} {seed pt : Bytes} (hg : GoodChains s)
    (h : Accepts s m seed pt s') :
    ∃ cipherKey macKey iv them me, MessageKey s m.senderRatchetKey m.counter cipherKey macKey iv ∧
      KeyOf s.remoteIdentityPublic them ∧ KeyOf s.localIdentityPublic me ∧ m.senderRatchetKey.length = 32 ∧
      m.counter < 2 ^ 32 ∧
      ∀ pt' previous, ∃ ct, CbcEncryption cipherKey iv pt' ct ∧ ct.length ≤ pt'.length + 16 ∧ ct ≠ [] ∧
        Accepts s (writtenMessage macKey m.senderRatchetKey them me m.counter previous ct) seed pt' s' := by
  obtain @⟨s1, x, y, c, c', cipherKey, macKey, iv, them, me, body, h1, h2, h3, h4, h5, h6, h7, h8, h9, h10, h11, h12⟩ := h
  refine ⟨cipherKey, macKey, iv, them, me, ?_, h8, h9, ?_, ?_, ?_⟩
  · cases h3 with
    | known =>
      have hc : c ∈ s.receiverChains := by rw [h4]; simp
      cases h7 with
      | stored hlt e1 e2 e3 => exact .stored hc h5 (by rw [e1]; simp) e2
      | ahead e1 e2 e3 e4 =>
        rw [position_getD] at e1 e4
        rw [chainKeyBytes_getD] at e4
        exact .ahead hc h5 e1 e4
    | @ratchet c0 d1 d2 hno hs hd1 hd2 =>
      obtain rfl := newestFive_append_new hno h4 h5
      cases h7 with
      | stored hlt => exact absurd hlt (Nat.not_lt_zero _)
      | ahead e1 e2 e3 e4 => exact .ratchet hs hd1 e4
  · cases h3 with
    | known =>
      have hc : c ∈ s.receiverChains := by rw [h4]; simp
      obtain ⟨k, e1, e2⟩ := (hg.good c hc).key
      obtain ⟨z, e3, e4⟩ := h5
      rw [e1] at e3
      obtain ⟨_, rfl⟩ := List.cons.inj (Option.some.inj e3)
      rw [e4, List.length_take]
      omega
    | ratchet hno hs hd1 hd2 => exact (hC.dh_size _ _ _ hd1).2
  · cases h7 with
    | ahead => omega
    | stored hlt =>
      cases h3 with
      | known =>
        have hc : c ∈ s.receiverChains := by rw [h4]; simp
        obtain ⟨k, i, e1, e2⟩ := (hg.good c hc).chain
        have : position c = i := by unfold position; rw [e1]; rfl
        omega
      | ratchet hno =>
        obtain rfl := newestFive_append_new hno h4 h5
        exact absurd hlt (Nat.not_lt_zero _)
  · intro pt' previous
    obtain ⟨ct, a1, a2, a3, a4, a5⟩ := C01_cipher_roundtrip hC cipherKey iv pt' h11.1 h11.2
    refine ⟨ct, aes_cbc hC a1, a5, ?_, ?_⟩
    · rintro rfl; exact absurd a4 (Nat.not_lt_zero _)
    · exact .intro h1 rfl h3 h4 h5 h6 h7 h8 h9 rfl h11 (aes_cbc_dec hC a2)

/-- **C91, other plaintexts.**  If the current state reads a message, then it offers the keys of a message with the same
header and any other plaintext, written by `writtenMessage` from these keys alone; the bytes parse, and the state reads it
in place of the first, with the same effect.  So nobody who can read a message can prove to others what it said. -/
theorem C91_rewrite (hC : C.Lawful) (w0 : World) (hw : w0.NoSessions) (cs : List Call) (a : Address) (r : SessionRecord)
    (hr : (Call.after w0 cs).sessions a = some r) (m : WhisperMessage) (seed : Bytes) (seeds : Nat → Bytes) (pt : Bytes)
    (s' : SessionS) (h : Accepts r.sessionState m seed pt s') :
    SessionCipher.decryptMsg (Call.after w0 cs) a m seed seeds =
      ⟨[.session a { r with fresh := false, sessionState := s' }], .ok pt⟩ ∧
    ∃ cipherKey macKey iv them me, MessageKey r.sessionState m.senderRatchetKey m.counter cipherKey macKey iv ∧
      KeyOf r.sessionState.remoteIdentityPublic them ∧ KeyOf r.sessionState.localIdentityPublic me ∧
      ∀ pt' previous, pt'.length < 2 ^ 62 → previous < 2 ^ 32 → ∃ ct, CbcEncryption cipherKey iv pt' ct ∧
        let m' := writtenMessage macKey m.senderRatchetKey them me m.counter previous ct
        WhisperMessage.parse m'.serialized = .ok m' ∧
        SessionCipher.decryptMsg (Call.after w0 cs) a m' seed seeds =
          ⟨[.session a { r with fresh := false, sessionState := s' }], .ok pt'⟩ := by
  refine ⟨C55_accepted hC w0 hw cs a r hr m seed seeds pt s' h, ?_⟩
  obtain ⟨cipherKey, macKey, iv, them, me, e1, e2, e3, e4, e5, e6⟩ :=
    accepts_rewrite hC (reachable_all (goodChains_inv hC) w0 hw cs a r hr).1 h
  refine ⟨cipherKey, macKey, iv, them, me, e1, e2, e3, ?_⟩
  intro pt' previous hpt hp
  obtain ⟨ct, f1, f2, f3, f4⟩ := e6 pt' previous
  refine ⟨ct, f1, ?_, C55_accepted hC w0 hw cs a r hr _ seed seeds pt' s' f4⟩
  obtain ⟨n, g1, g2, g3, g4, g5, g6, g7⟩ := C02_whisper_roundtrip hC.hmac_len 3 (Or.inr rfl) macKey m.senderRatchetKey e4
    m.counter previous e5 hp ct f3 (by omega) them me
  have hn : n = writtenMessage macKey m.senderRatchetKey them me m.counter previous ct := by
    have hb := whisper_bytes hC.hmac_len g1 (by omega) (by omega)
    obtain ⟨n1, n2, n3, n4, n5, n6⟩ := n
    simp only at g3 g4 g5 g6 g7 hb
    subst g3 g4 g5 g6 g7 hb
    rfl
  rw [← hn]
  exact g2

/-! ## What is signed -/

omit C in
theorem exchange_fields {v n f : Nat} {base ratchet identity : ECPub} {sig : Bytes} {msg : KeyExchangeMessage}
    (h : KeyExchangeMessage.create v n f base sig ratchet identity = .ok msg) :
    msg.identityKey = identity ∧ msg.baseKey = base ∧ msg.baseKeySignature = sig := by
  unfold KeyExchangeMessage.create at h
  obtain ⟨_, _, h⟩ := bind_eq_ok.1 h
  obtain rfl := Except.ok.inj h
  exact ⟨rfl, rfl, rfl⟩

/-- **C91, the limit.**  A key exchange request carries a signature of its base key under the sender's identity key, which
anybody can check; so does the answer to one, if no exchange of our own was under way. -/
theorem C91_signed (hC : C.Lawful) (w : World) (a : Address) (hid : GoodPair w.identityKeyPair) (msg : KeyExchangeMessage) :
    (∀ n baseSeed ratchetSeed sigRand, sigRand.length = 64 →
      (processInitKeyExchangeMessage w a n baseSeed ratchetSeed sigRand).result = .ok msg →
      msg.identityKey = w.identityKeyPair.pub ∧
      C.verifySig w.identityKeyPair.pub (5 :: msg.baseKey) msg.baseKeySignature = some true) ∧
    (∀ request rnd, rnd.sigRand.length = 64 → (w.loadSession a).sessionState.pendingKeyExchange = none →
      (processKeyExchangeMessage w a request rnd).result = .ok (some msg) →
      msg.identityKey = w.identityKeyPair.pub ∧
      C.verifySig w.identityKeyPair.pub (5 :: msg.baseKey) msg.baseKeySignature = some true) := by
  have hsig : ∀ {r m sig : Bytes}, r.length = 64 → C.calcSig r w.identityKeyPair.priv m = some sig →
      C.verifySig w.identityKeyPair.pub m sig = some true := by
    intro r m sig hr h
    obtain ⟨s, e1, _, e2⟩ := hC.sig_ok r w.identityKeyPair.priv m hr hid.drawn
    rw [h] at e1
    obtain rfl := Option.some.inj e1
    rw [hid.pub]
    exact e2
  constructor
  · intro n baseSeed ratchetSeed sigRand hs h
    unfold processInitKeyExchangeMessage at h
    simp only at h
    split at h
    · cases h
    · rename_i sig r hx
      obtain ⟨sig', h1, hx⟩ := bind_eq_ok.1 hx
      obtain ⟨_, _, hx⟩ := bind_eq_ok.1 hx
      obtain ⟨rfl, _⟩ := Prod.mk.inj (Except.ok.inj hx)
      obtain ⟨e1, e2, e3⟩ := exchange_fields h
      refine ⟨e1, ?_⟩
      rw [e2, e3]
      exact hsig hs (calculateSignature_ok h1)
  · intro request rnd hs hp h
    unfold processKeyExchangeMessage at h
    split at h
    · cases h
    · split at h
      · obtain ⟨flags, identity, base, ratchet, sig, h1, h2, h3⟩ := processInitiate_response h
        obtain ⟨e1, e2, e3⟩ := exchange_fields h3
        rcases h1 with ⟨_, _, rfl, _⟩ | ⟨p, hp', _⟩
        · refine ⟨e1, ?_⟩
          rw [e2, e3]
          exact hsig hs h2
        · rw [hp] at hp'; cases hp'
      · unfold processResponse at h
        simp only at h
        split at h
        · split at h <;> cases h
        · have h := Outcome.ofRes_ok h
          obtain ⟨_, _, h⟩ := bind_eq_ok.1 h
          obtain ⟨_, _, h⟩ := bind_eq_ok.1 h
          obtain ⟨_, _, h⟩ := bind_eq_ok.1 h
          obtain ⟨_, _, h⟩ := bind_eq_ok.1 h
          obtain ⟨_, _, h⟩ := bind_eq_ok.1 h
          split at h
          · cases h
          · obtain ⟨_, h⟩ := Prod.mk.inj (Except.ok.inj h)
            cases h

end

/-! ## Cases meeting the hypotheses -/

section
attribute [local instance] toy
open Example Spec

/-- `C91_initiator`, `C91_transcript`: Bob writes Alice's side of their first contact, in his own stores. -/
example := C91_transcript toy_lawful contact_example.self contact_example.published contact_example.trustA contact_example.seed1
  contact_example.seed2 (show alice0.sessions bobAddr = none from rfl) bob0 [.encrypt bobAddr [104, 105], .encrypt bobAddr [1]]
  (by intro c hc; rcases List.mem_cons.1 hc with rfl | hc
      · rfl
      · obtain rfl := List.mem_singleton.1 hc; rfl)

/-- The message Alice sends, and the one that Bob writes with his own keys, as bytes. -/
example :
    ((forgedInitiator alice0.identityKeyPair.pub alice0.registrationId.toNat bob0.registrationId.toNat bob0.identityKeyPair 22
      (pair 22) (some (31, pair 31)) (key 41) (key 42)).bind fun s =>
        (SessionCipher.encrypt (withSession bob0 bobAddr s) bobAddr [104, 105]).result.toOption.map Ciphertext.serialize) =
    (SessionCipher.encrypt ((processPreKeyBundle alice0 bobAddr bobBundle (key 41) (key 42)).final alice0) bobAddr
      [104, 105]).result.toOption.map Ciphertext.serialize := by decide +kernel

/-- `C91_impersonate`: a message to Bob as from the owner of the key pair 11 (Alice's). -/
example := C91_impersonate toy_lawful (ab := bobAddr) (ba := aliceAddr) (a := alice0.identityKeyPair) (regA := 7)
  contact_example.self.identity (by decide) contact_example.published contact_example.trustB contact_example.seed1
  contact_example.seed2 contact_example.seed3 contact_example.new contact_example.size (fun _ => key 52) alice0

/-- `C91_recipient`, `C91_transcript_recipient`: Alice writes Bob's side. -/
example := C91_transcript_recipient toy_lawful (fun _ => key 52) contact_example (show bob0.sessions aliceAddr = none from rfl)
  alice0 [.encrypt aliceAddr [121, 111]] (by intro c hc; obtain rfl := List.mem_singleton.1 hc; rfl)

/-- `C91_rewrite`: Alice, having read Bob's reply, writes another in its place. -/
example : ∃ r s', alice2.sessions bobAddr = some r ∧ Accepts r.sessionState replyMsg (key 43) [121, 111] s' := by
  have h : ((alice2.sessions bobAddr).bind fun r =>
    (SessionCipher.decryptWithSessionState r.sessionState replyMsg (key 43)).toOption.map fun p => p.1) = some [121, 111] := by
    decide +kernel
  have hg : ∀ r ∈ alice2.sessions bobAddr, r.sessionState.sessionVersion = some 3 ∧ r.sessionState.receiverChains.length ≤ 5 := by
    decide +kernel
  cases hr : alice2.sessions bobAddr with
  | none => rw [hr] at h; cases h
  | some r =>
    rw [hr] at h
    cases hd : SessionCipher.decryptWithSessionState r.sessionState replyMsg (key 43) with
    | error e => rw [Option.bind_some, hd] at h; cases h
    | ok p =>
      obtain ⟨pt, s'⟩ := p
      rw [Option.bind_some, hd] at h
      obtain rfl : pt = [121, 111] := Option.some.inj h
      exact ⟨r, s', rfl, accepts_of_dwss toy_lawful (hg r hr).1 (hg r hr).2 hd⟩

/-- `C91_signed`: a request of Alice's. -/
example : ((processInitKeyExchangeMessage alice0 bobAddr 5 (key 41) (key 42) (List.replicate 64 3)).result.toOption.map fun m =>
    (m.identityKey == alice0.identityKeyPair.pub, Crypto.verifySig m.identityKey (5 :: m.baseKey) m.baseKeySignature)) =
    some (true, some true) := by decide +kernel

end
end Axolotl
