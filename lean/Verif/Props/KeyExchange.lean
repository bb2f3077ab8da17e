import Verif.Proofs.KeyExchange
import Verif.Example

/-! # C14: the two sides of a key exchange -/

namespace Axolotl
section
variable [C : Crypto]
open SessionState SessionBuilder RatchetingSession
open Spec (GoodPair)

theorem KeStates.roles (hC : C.Lawful) {x y : KeSide} {seed secrets : Bytes} {sx sy : SessionState} (hy : y.Good)
    (hs : seed.length = 32) (h : KeStates x y seed secrets sx sy) :
    Spec.SameEnds sx sy ∧ Spec.OppositeRoles (x.identity, x.base) (y.identity, y.base) y.ratchet sx sy := by
  obtain ⟨okm, h1, h2, h3⟩ := h.material
  refine ⟨⟨h.initiator.version, h.answerer.version, ?_, ?_⟩, okm, h1, ?_, ?_⟩
  · rw [h.initiator.lid, h.answerer.rid]
  · rw [h.initiator.rid, h.answerer.lid]
  · exact initiator_of_party hC hy.ratchet hs h.initiator h2 h3
  · exact answerer_of_party h.answerer h2 h3

theorem Spec.SameEnds.symm {a b : SessionS} (h : Spec.SameEnds a b) : Spec.SameEnds b a :=
  ⟨h.versionB, h.versionA, h.ba, h.ab⟩

/-- Both sides initialise, whichever role the base keys give them. -/
theorem ke_both (hC : C.Lawful) {x y : KeSide} (hx : x.Good) (hy : y.Good) {seedX seedY : Bytes}
    (hsx : seedX.length = 32) (hsy : seedY.length = 32) (hne : x.base.pub ≠ y.base.pub) :
    ∃ secrets sx sy, initializeSession {} (x.params y) seedX = .ok sx ∧
      initializeSession {} (y.params x) seedY = .ok sy ∧
      (KeStates x y seedX secrets sx sy ∨ KeStates y x seedY secrets sy sx) := by
  obtain ⟨t, h1, h2⟩ := pubLt_antisymm (hx.base.pub_len hC) (hy.base.pub_len hC) hne
  cases t with
  | true =>
    obtain ⟨sec, sx, sy, g1, g2, g3⟩ := ke_states hC hx hy (seedY := seedY) hsx h1 h2
    exact ⟨sec, sx, sy, g1, g2, Or.inl g3⟩
  | false =>
    obtain ⟨sec, sy, sx, g1, g2, g3⟩ := ke_states hC hy hx (seedY := seedX) hsy h2 h1
    exact ⟨sec, sx, sy, g2, g1, Or.inr g3⟩

theorem ke_both_v3 {x y : KeSide} {seedX seedY secrets : Bytes} {sx sy : SessionState}
    (h : KeStates x y seedX secrets sx sy ∨ KeStates y x seedY secrets sy sx) :
    getSessionVersion sx = 3 ∧ getSessionVersion sy = 3 := by
  rcases h with h | h
  · exact ⟨h.initiator.ver, h.answerer.ver⟩
  · exact ⟨h.answerer.ver, h.initiator.ver⟩

/-- One run: ask, answer, finish. -/
theorem exchange_run (hC : C.Lawful) {wA wB : World} {ab ba : Address} {rnd : Nat} {bs rs ss : Bytes}
    {rndB rndA : InitiateRand} (h : Spec.KeyExchange wA wB ab ba rnd bs rs ss rndB rndA)
    (hpend : ∀ r, wB.sessions ba = some r → r.sessionState.pendingKeyExchange = none) :
    ∃ ask answer rA rB secrets,
      (processInitKeyExchangeMessage wA ab rnd bs rs ss).result = .ok ask ∧
      KeyExchangeMessage.parse ask.serialized = .ok ask ∧
      processKeyExchangeMessage wB ba ask rndB =
        ⟨[.session ba rB, .identity ba.1 wA.identityKeyPair.pub], .ok (some answer)⟩ ∧
      KeyExchangeMessage.parse answer.serialized = .ok answer ∧
      processKeyExchangeMessage ((processInitKeyExchangeMessage wA ab rnd bs rs ss).final wA) ab answer rndA =
        ⟨[.session ab rA, .identity ab.1 wB.identityKeyPair.pub], .ok none⟩ ∧
      (KeStates ⟨wA.identityKeyPair, Curve.generateKeyPair bs, Curve.generateKeyPair rs⟩
          ⟨wB.identityKeyPair, Curve.generateKeyPair rndB.baseSeed, Curve.generateKeyPair rndB.ratchetSeed⟩
          rndA.sendSeed secrets rA.sessionState rB.sessionState ∨
       KeStates ⟨wB.identityKeyPair, Curve.generateKeyPair rndB.baseSeed, Curve.generateKeyPair rndB.ratchetSeed⟩
          ⟨wA.identityKeyPair, Curve.generateKeyPair bs, Curve.generateKeyPair rs⟩
          rndB.sendSeed secrets rB.sessionState rA.sessionState) := by
  have hgA : KeSide.Good ⟨wA.identityKeyPair, Curve.generateKeyPair bs, Curve.generateKeyPair rs⟩ :=
    ⟨h.idA, generate_good hC h.seed1, generate_good hC h.seed2⟩
  have hgB : KeSide.Good ⟨wB.identityKeyPair, Curve.generateKeyPair rndB.baseSeed,
      Curve.generateKeyPair rndB.ratchetSeed⟩ := ⟨h.idB, generate_good hC h.seed4, generate_good hC h.seed5⟩
  obtain ⟨s, ask, a1, a2, a3⟩ := init_forward hC (a := ab) h.idA h.sequence h.seed1 h.seed2 h.seed3
  obtain ⟨secrets, sA, sB, b1, b2, b3⟩ := ke_both hC hgA hgB h.seed8 h.seed6 h.distinct
  obtain ⟨v1, v2⟩ := ke_both_v3 b3
  have hseq := h.sequence
  obtain ⟨answer, c1, c2⟩ := initiate_forward hC (w := wB) (a := ba) (rnd := rndB) h.idB
    (by
      unfold World.loadSession
      cases hr : wB.sessions ba with
      | none => rfl
      | some r => exact hpend r hr) h.trustB a3 (by omega) h.seed4 h.seed5 h.seed7 b2 v2
  have hload : ((processInitKeyExchangeMessage wA ab rnd bs rs ss).final wA).loadSession ab =
      { (wA.loadSession ab).setState s with fresh := false } := by
    rw [a1]
    simp [Outcome.final, World.applyAll, World.apply, upd, World.loadSession]
  have htr : ((processInitKeyExchangeMessage wA ab rnd bs rs ss).final wA).isTrusted ab.1 wB.identityKeyPair.pub = true := by
    rw [a1]
    exact h.trustA
  have d := response_forward hC (w := (processInitKeyExchangeMessage wA ab rnd bs rs ss).final wA) (a := ab)
    (rnd := rndA) hgA (by rw [hload]; exact a2) (Or.inl rfl) htr c2 b1
  exact ⟨ask, answer, _, _, secrets, by rw [a1], a3.parse, c1, c2.parse, d, b3⟩

/-- **C14.** A initiates, B answers, A processes the answer, all messages going over the wire.  If the two
base keys differ, A and B end in opposite roles with the same key material, whichever base key is smaller. -/
theorem C14_roles_agree (hC : C.Lawful) {wA wB : World} {ab ba : Address} {rnd : Nat} {bs rs ss : Bytes}
    {rndB rndA : InitiateRand} (h : Spec.KeyExchange wA wB ab ba rnd bs rs ss rndB rndA)
    (hpend : ∀ r, wB.sessions ba = some r → r.sessionState.pendingKeyExchange = none) :
    ∃ ask answer, let o1 := processInitKeyExchangeMessage wA ab rnd bs rs ss
      let o2 := processKeyExchangeMessage wB ba ask rndB
      let o3 := processKeyExchangeMessage (o1.final wA) ab answer rndA
      (do let m ← o1.result; KeyExchangeMessage.parse m.serialized) = .ok ask ∧
      (∃ m, o2.result = .ok (some m) ∧ KeyExchangeMessage.parse m.serialized = .ok answer) ∧
      o3.result = .ok none ∧
      ∃ rA rB, (o3.final (o1.final wA)).sessions ab = some rA ∧ (o2.final wB).sessions ba = some rB ∧
        Spec.SameEnds rA.sessionState rB.sessionState ∧
        (Spec.OppositeRoles (wA.identityKeyPair, Curve.generateKeyPair bs)
            (wB.identityKeyPair, Curve.generateKeyPair rndB.baseSeed) (Curve.generateKeyPair rndB.ratchetSeed)
            rA.sessionState rB.sessionState ∨
         Spec.OppositeRoles (wB.identityKeyPair, Curve.generateKeyPair rndB.baseSeed)
            (wA.identityKeyPair, Curve.generateKeyPair bs) (Curve.generateKeyPair rs)
            rB.sessionState rA.sessionState) := by
  obtain ⟨ask, answer, rA, rB, secrets, h1, h2, h3, h4, h5, h6⟩ := exchange_run hC h hpend
  refine ⟨ask, answer, ?_⟩
  dsimp only
  refine ⟨by rw [h1]; exact h2, ⟨answer, by rw [h3], h4⟩, by rw [h5], rA, rB, ?_, ?_, ?_⟩
  · rw [h5]; simp [Outcome.final, World.applyAll, World.apply, upd]
  · rw [h3]; simp [Outcome.final, World.applyAll, World.apply, upd]
  · rcases h6 with h6 | h6
    · obtain ⟨q1, q2⟩ := h6.roles hC ⟨h.idB, generate_good hC h.seed4, generate_good hC h.seed5⟩ h.seed8
      exact ⟨q1, Or.inl q2⟩
    · obtain ⟨q1, q2⟩ := h6.roles hC ⟨h.idA, generate_good hC h.seed1, generate_good hC h.seed2⟩ h.seed6
      exact ⟨q1.symm, Or.inr q2⟩

/-- **C14**, crossing requests: both sides initiate, and each processes the other's initiate message.  They
end in opposite roles with the same key material, and each ignores the other's answer. -/
theorem C14_crossing_agree (hC : C.Lawful) {wA wB : World} {ab ba : Address} {nA nB : Nat}
    {bsA rsA ssA bsB rsB ssB : Bytes} {rndA rndB rndA' rndB' : InitiateRand}
    (h : Spec.CrossingExchange wA wB ab ba nA nB bsA rsA ssA bsB rsB ssB rndA rndB) :
    ∃ askA askB answerA answerB,
      let a1 := processInitKeyExchangeMessage wA ab nA bsA rsA ssA
      let b1 := processInitKeyExchangeMessage wB ba nB bsB rsB ssB
      let a2 := processKeyExchangeMessage (a1.final wA) ab askB rndA
      let b2 := processKeyExchangeMessage (b1.final wB) ba askA rndB
      let a3 := processKeyExchangeMessage (a2.final (a1.final wA)) ab answerB rndA'
      let b3 := processKeyExchangeMessage (b2.final (b1.final wB)) ba answerA rndB'
      (do let m ← a1.result; KeyExchangeMessage.parse m.serialized) = .ok askA ∧
      (do let m ← b1.result; KeyExchangeMessage.parse m.serialized) = .ok askB ∧
      (∃ m, a2.result = .ok (some m) ∧ KeyExchangeMessage.parse m.serialized = .ok answerA) ∧
      (∃ m, b2.result = .ok (some m) ∧ KeyExchangeMessage.parse m.serialized = .ok answerB) ∧
      ((a2.final (a1.final wA)).isTrusted ab.1 wB.identityKeyPair.pub = true → a3 = ⟨[], .ok none⟩) ∧
      ((b2.final (b1.final wB)).isTrusted ba.1 wA.identityKeyPair.pub = true → b3 = ⟨[], .ok none⟩) ∧
      ∃ rA rB, (a2.final (a1.final wA)).sessions ab = some rA ∧ (b2.final (b1.final wB)).sessions ba = some rB ∧
        Spec.SameEnds rA.sessionState rB.sessionState ∧
        (Spec.OppositeRoles (wA.identityKeyPair, Curve.generateKeyPair bsA)
            (wB.identityKeyPair, Curve.generateKeyPair bsB) (Curve.generateKeyPair rsB)
            rA.sessionState rB.sessionState ∨
         Spec.OppositeRoles (wB.identityKeyPair, Curve.generateKeyPair bsB)
            (wA.identityKeyPair, Curve.generateKeyPair bsA) (Curve.generateKeyPair rsA)
            rB.sessionState rA.sessionState) := by
  have hgA : KeSide.Good ⟨wA.identityKeyPair, Curve.generateKeyPair bsA, Curve.generateKeyPair rsA⟩ :=
    ⟨h.idA, generate_good hC h.seedA1, generate_good hC h.seedA2⟩
  have hgB : KeSide.Good ⟨wB.identityKeyPair, Curve.generateKeyPair bsB, Curve.generateKeyPair rsB⟩ :=
    ⟨h.idB, generate_good hC h.seedB1, generate_good hC h.seedB2⟩
  obtain ⟨pA, askA, a1, a2, a3⟩ := init_forward hC (a := ab) h.idA h.sequenceA h.seedA1 h.seedA2 h.seedA3
  obtain ⟨pB, askB, b1, b2, b3⟩ := init_forward hC (a := ba) h.idB h.sequenceB h.seedB1 h.seedB2 h.seedB3
  obtain ⟨secrets, sA, sB, i1, i2, i3⟩ := ke_both hC hgA hgB h.seedA4 h.seedB4 h.distinct
  obtain ⟨v1, v2⟩ := ke_both_v3 i3
  have hqA := h.sequenceA
  have hqB := h.sequenceB
  have hload : ∀ (w : World) (a : Address) (r : SessionRecord),
      ((⟨[.session a r], Except.ok ()⟩ : Outcome Unit).final w).loadSession a = { r with fresh := false } := by
    intro w a r
    simp [Outcome.final, World.applyAll, World.apply, upd, World.loadSession]
  have hlA : ((processInitKeyExchangeMessage wA ab nA bsA rsA ssA).final wA).loadSession ab =
      { (wA.loadSession ab).setState pA with fresh := false } := by rw [a1]; exact hload _ _ _
  have hlB : ((processInitKeyExchangeMessage wB ba nB bsB rsB ssB).final wB).loadSession ba =
      { (wB.loadSession ba).setState pB with fresh := false } := by rw [b1]; exact hload _ _ _
  obtain ⟨ansA, c1, c2⟩ := crossing_forward hC (w := (processInitKeyExchangeMessage wA ab nA bsA rsA ssA).final wA)
    (a := ab) (rnd := rndA) hgA (by rw [hlA]; exact a2) (by rw [a1]; exact h.trustA) b3 (by omega) h.seedA5 i1 v1
  obtain ⟨ansB, d1, d2⟩ := crossing_forward hC (w := (processInitKeyExchangeMessage wB ba nB bsB rsB ssB).final wB)
    (a := ba) (rnd := rndB) hgB (by rw [hlB]; exact b2) (by rw [b1]; exact h.trustB) a3 (by omega) h.seedB5 i2 v2
  have hnone : ∀ (w : World) (a : Address) (r : SessionRecord) (s : SessionState) (x y : KeSide) (n : ECPub) (q : Nat)
      (m : KeyExchangeMessage) (rnd : InitiateRand), KeMessage m y q 6 → s.pendingKeyExchange = none →
      w.sessions a = some (r.setState s) → w.isTrusted a.1 y.identity.pub = true →
      processKeyExchangeMessage w a m rnd = ⟨[], .ok none⟩ := by
    intro w a r s x y n q m rnd hm hs hr ht
    unfold processKeyExchangeMessage processResponse
    have hini : m.isInitiate = false := by unfold KeyExchangeMessage.isInitiate; rw [hm.flags]; rfl
    have hsim : m.isResponseForSimultaneousInitiate = true := by
      unfold KeyExchangeMessage.isResponseForSimultaneousInitiate; rw [hm.flags]; rfl
    have hl : w.loadSession a = { r.setState s with fresh := false } := by unfold World.loadSession; rw [hr]
    have hp : hasPendingKeyExchange (w.loadSession a).sessionState = false := by
      rw [hl]
      show hasPendingKeyExchange s = false
      unfold hasPendingKeyExchange; rw [hs]; rfl
    rw [hm.identityKey, ht, hini]
    simp only [Bool.not_true, Bool.false_eq_true, if_false]
    rw [hp, hsim]
    rfl
  have hpA : sA.pendingKeyExchange = none ∧ sB.pendingKeyExchange = none :=
    i3.elim (fun i => i.noExchange) (fun i => i.noExchange.symm)
  refine ⟨askA, askB, ansA, ansB, ?_⟩
  dsimp only
  refine ⟨by rw [a1]; exact a3.parse, by rw [b1]; exact b3.parse, ⟨ansA, by rw [c1], c2.parse⟩,
    ⟨ansB, by rw [d1], d2.parse⟩, ?_, ?_,
    (archiveUnlessFresh (((processInitKeyExchangeMessage wA ab nA bsA rsA ssA).final wA).loadSession ab)).setState sA,
    (archiveUnlessFresh (((processInitKeyExchangeMessage wB ba nB bsB rsB ssB).final wB).loadSession ba)).setState sB,
    ?_, ?_, ?_⟩
  · intro ht
    exact hnone _ _ _ sA ⟨wA.identityKeyPair, Curve.generateKeyPair bsA, Curve.generateKeyPair rsA⟩ _ [] _ _ _ d2 hpA.1
      (by rw [c1]; simp [Outcome.final, World.applyAll, World.apply, upd]; rfl) ht
  · intro ht
    exact hnone _ _ _ sB ⟨wA.identityKeyPair, Curve.generateKeyPair bsA, Curve.generateKeyPair rsA⟩ _ [] _ _ _ c2 hpA.2
      (by rw [d1]; simp [Outcome.final, World.applyAll, World.apply, upd]; rfl) ht
  · rw [c1]; simp [Outcome.final, World.applyAll, World.apply, upd]
  · rw [d1]; simp [Outcome.final, World.applyAll, World.apply, upd]
  · rcases i3 with i3 | i3
    · obtain ⟨q1, q2⟩ := i3.roles hC hgB h.seedA4
      exact ⟨q1, Or.inl q2⟩
    · obtain ⟨q1, q2⟩ := i3.roles hC hgA h.seedB4
      exact ⟨q1.symm, Or.inr q2⟩

end

/-! ## Examples -/

section
attribute [local instance] toy
open Example

def sig64 (n : UInt8) : Bytes := List.replicate 64 n

/-- The hypotheses are met, with the smaller base key on the asking side. -/
theorem exchange_example : Spec.KeyExchange alice0 bob0 bobAddr aliceAddr 77 (key 61) (key 62) (sig64 63)
    ⟨key 71, key 72, key 73, sig64 74⟩ ⟨key 81, key 82, key 83, sig64 84⟩ where
  idA := ⟨by decide, by decide, toy_generated _ (by decide)⟩
  idB := ⟨by decide, by decide, toy_generated _ (by decide)⟩
  trustA := by decide
  trustB := by decide
  sequence := by decide
  seed1 := rfl
  seed2 := rfl
  seed3 := rfl
  seed4 := rfl
  seed5 := rfl
  seed6 := rfl
  seed7 := rfl
  seed8 := rfl
  distinct := by decide

/-- The hypotheses are met, with the larger base key on the asking side. -/
theorem exchange_example' : Spec.KeyExchange alice0 bob0 bobAddr aliceAddr 77 (key 71) (key 62) (sig64 63)
    ⟨key 61, key 72, key 73, sig64 74⟩ ⟨key 81, key 82, key 83, sig64 84⟩ where
  idA := ⟨by decide, by decide, toy_generated _ (by decide)⟩
  idB := ⟨by decide, by decide, toy_generated _ (by decide)⟩
  trustA := by decide
  trustB := by decide
  sequence := by decide
  seed1 := rfl
  seed2 := rfl
  seed3 := rfl
  seed4 := rfl
  seed5 := rfl
  seed6 := rfl
  seed7 := rfl
  seed8 := rfl
  distinct := by decide

theorem exchange_example_pending : ∀ r, bob0.sessions aliceAddr = some r → r.sessionState.pendingKeyExchange = none := by
  intro r hr; cases hr

theorem crossing_example : Spec.CrossingExchange alice0 bob0 bobAddr aliceAddr 77 78 (key 61) (key 62) (sig64 63)
    (key 71) (key 72) (sig64 73) ⟨key 81, key 82, key 83, sig64 84⟩ ⟨key 91, key 92, key 93, sig64 94⟩ where
  idA := ⟨by decide, by decide, toy_generated _ (by decide)⟩
  idB := ⟨by decide, by decide, toy_generated _ (by decide)⟩
  trustA := by decide
  trustB := by decide
  sequenceA := by decide
  sequenceB := by decide
  seedA1 := rfl
  seedA2 := rfl
  seedA3 := rfl
  seedA4 := rfl
  seedA5 := rfl
  seedB1 := rfl
  seedB2 := rfl
  seedB3 := rfl
  seedB4 := rfl
  seedB5 := rfl
  distinct := by decide

end
end Axolotl
