import Verif.Spec.Session

/-! # Vocabulary for session setup: well-formed key pairs and published bundles -/

namespace Axolotl.Spec
variable [C : Crypto]

/-- A key pair as key generation produces it. -/
structure GoodPair (k : KeyPair) : Prop where
  priv : k.priv.length = 32
  pub : k.pub = C.genPub k.priv
  drawn : C.Generated k.priv

/-- The signed prekey stored under id `i` is `k`. -/
def HoldsSigned (w : World) (i : Nat) (k : KeyPair) : Prop :=
  ∃ r, w.signedPreKeys i = some r ∧ r.publicKey = some (5 :: k.pub) ∧ r.privateKey = some k.priv

/-- The one-time prekey stored under id `i` is `k`. -/
def HoldsPreKey (w : World) (i : Nat) (k : KeyPair) : Prop :=
  ∃ r, w.preKeys i = some r ∧ r.publicKey = some (5 :: k.pub) ∧ r.privateKey = some k.priv

/-- `b` is a bundle published by the owner of `w`: it names the identity, a signed prekey `spk` and
possibly a one-time prekey `otk`, all of which are in the stores, and the signature is valid. -/
structure Published (w : World) (b : PreKeyBundle) (spkId : Nat) (spk : KeyPair)
    (otk : Option (Nat × KeyPair)) : Prop where
  identity : b.identityKey = w.identityKeyPair.pub
  goodIdentity : GoodPair w.identityKeyPair
  signedKey : b.signedPreKey = some spk.pub
  signedId : b.signedPreKeyId = spkId
  signedRange : spkId < 2 ^ 31
  signedStored : HoldsSigned w spkId spk
  goodSigned : GoodPair spk
  signature : C.verifySig b.identityKey (5 :: spk.pub) b.signedPreKeySignature = some true
  oneTime : b.preKey = otk.map fun p => p.2.pub
  oneTimeStored : ∀ p, otk = some p →
    b.preKeyId = p.1 ∧ p.1 < 2 ^ 32 ∧ HoldsPreKey w p.1 p.2 ∧ GoodPair p.2
  registration : b.registrationId = w.registrationId
  registrationRange : 0 ≤ w.registrationId ∧ w.registrationId < 2 ^ 32

/-- The party that processes the bundle: a well-formed identity and registration id. -/
structure GoodSelf (w : World) : Prop where
  identity : GoodPair w.identityKeyPair
  registration : 0 ≤ w.registrationId ∧ w.registrationId < 2 ^ 32

/-- Everything needed for a first message from the owner of `wA` to the owner of `wB`: `b` is published by
the latter, both applications trust the other's identity key, the randomness has the size the generator
returns, and the base key is not one the recipient has already seen from this address. -/
structure FirstContact (wA wB : World) (ab ba : Address) (b : PreKeyBundle) (spkId : Nat) (spk : KeyPair)
    (otk : Option (Nat × KeyPair)) (baseSeed ratchetSeed bobSeed pt : Bytes) : Prop where
  self : GoodSelf wA
  published : Published wB b spkId spk otk
  trustA : wA.isTrusted ab.1 b.identityKey = true
  trustB : wB.isTrusted ba.1 wA.identityKeyPair.pub = true
  seed1 : baseSeed.length = 32
  seed2 : ratchetSeed.length = 32
  seed3 : bobSeed.length = 32
  new : ∀ r, wB.sessions ba = some r → ¬ knowsBaseKey r 3 (C.genPub (C.genPriv baseSeed))
  size : pt.length < 2 ^ 62

/-- A key exchange that the owner of `wA` starts and the owner of `wB` answers: well-formed identities,
mutual trust, randomness of the sizes the generator returns, different base keys. -/
structure KeyExchange (wA wB : World) (ab ba : Address) (rnd : Nat) (bs rs ss : Bytes)
    (rndB rndA : SessionBuilder.InitiateRand) : Prop where
  idA : GoodPair wA.identityKeyPair
  idB : GoodPair wB.identityKeyPair
  trustA : wA.isTrusted ab.1 wB.identityKeyPair.pub = true
  trustB : wB.isTrusted ba.1 wA.identityKeyPair.pub = true
  sequence : rnd < 65534
  seed1 : bs.length = 32
  seed2 : rs.length = 32
  seed3 : ss.length = 64
  seed4 : rndB.baseSeed.length = 32
  seed5 : rndB.ratchetSeed.length = 32
  seed6 : rndB.sendSeed.length = 32
  seed7 : rndB.sigRand.length = 64
  seed8 : rndA.sendSeed.length = 32
  distinct : C.genPub (C.genPriv bs) ≠ C.genPub (C.genPriv rndB.baseSeed)

/-- Both sides start a key exchange before either has seen the other's request. -/
structure CrossingExchange (wA wB : World) (ab ba : Address) (nA nB : Nat) (bsA rsA ssA bsB rsB ssB : Bytes)
    (rndA rndB : SessionBuilder.InitiateRand) : Prop where
  idA : GoodPair wA.identityKeyPair
  idB : GoodPair wB.identityKeyPair
  trustA : wA.isTrusted ab.1 wB.identityKeyPair.pub = true
  trustB : wB.isTrusted ba.1 wA.identityKeyPair.pub = true
  sequenceA : nA < 65534
  sequenceB : nB < 65534
  seedA1 : bsA.length = 32
  seedA2 : rsA.length = 32
  seedA3 : ssA.length = 64
  seedA4 : rndA.sendSeed.length = 32
  seedA5 : rndA.sigRand.length = 64
  seedB1 : bsB.length = 32
  seedB2 : rsB.length = 32
  seedB3 : ssB.length = 64
  seedB4 : rndB.sendSeed.length = 32
  seedB5 : rndB.sigRand.length = 64
  distinct : C.genPub (C.genPriv bsA) ≠ C.genPub (C.genPriv bsB)

/-- Which prekey id is used up by a message that names this id: all but the last-resort id. -/
def consumedId : Option Nat → Option Nat
  | none => none
  | some i => if i = 0xFFFFFF then none else some i

/-- `"WhisperText"` -/
def textInfo : Bytes := [87, 104, 105, 115, 112, 101, 114, 84, 101, 120, 116]

/-- `okm` is the key material that the three or four Diffie-Hellman secrets of session setup give: the
initiator's identity `a` and base key `base` against the peer's identity `idB`, signed prekey `spk` and
one-time prekey `otk`. -/
def SetupMaterial (a base : ECPriv) (idB spk : ECPub) (otk : Option ECPub) (okm : Bytes) : Prop :=
  ∃ d1 d2 d3 d4, C.dh a spk = some d1 ∧ C.dh base idB = some d2 ∧ C.dh base spk = some d3 ∧
    otk.elim (d4 = []) (fun k => C.dh base k = some d4) ∧
    okm = hkdf [] (List.replicate 32 0xFF ++ d1 ++ d2 ++ d3 ++ d4) textInfo 64

/-- The initiator's state after setup with the peer's ratchet key `rk`: it receives on the first chain of
the key material and sends after one ratchet step. -/
structure InitiatorState (s : SessionS) (okm : Bytes) (rk : ECPub) : Prop where
  recv : ∃ c, s.receiverChains = [c] ∧ c.senderRatchetKey = some (5 :: rk) ∧
    c.chainKey = some { key := some (okm.drop 32), index := some 0 } ∧ c.messageKeys = []
  send : ∃ c secret, s.senderChain = some c ∧ C.dh (c.senderRatchetKeyPrivate.getD []) rk = some secret ∧
    s.rootKey = some (ratchetRoot (okm.take 32) secret) ∧
    c.chainKey = some { key := some (ratchetChain (okm.take 32) secret), index := some 0 }

/-- The answering side's state after setup: root key and first sending chain are the key material. -/
structure AnswererState (s : SessionS) (okm : Bytes) (k : KeyPair) : Prop where
  root : s.rootKey = some (okm.take 32)
  recv : s.receiverChains = []
  send : s.senderChain = some
    { senderRatchetKey := some (5 :: k.pub), senderRatchetKeyPrivate := some k.priv,
      chainKey := some { key := some (okm.drop 32), index := some 0 } }

/-- Version 3 on both sides, and each side's peer is the other side. -/
structure SameEnds (sA sB : SessionS) : Prop where
  versionA : sA.sessionVersion = some 3
  versionB : sB.sessionVersion = some 3
  ab : sA.localIdentityPublic = sB.remoteIdentityPublic
  ba : sB.localIdentityPublic = sA.remoteIdentityPublic

/-- The two ends of a key exchange in opposite roles: `x` derived the initiator's state and `y` the
answering one, from the same key material of the identity and base keys of both. -/
def OppositeRoles (x y : KeyPair × KeyPair) (ratchetY : KeyPair) (sx sy : SessionS) : Prop :=
  ∃ okm, SetupMaterial x.1.priv x.2.priv y.1.pub y.2.pub none okm ∧ InitiatorState sx okm ratchetY.pub ∧
    AnswererState sy okm ratchetY

/-- `sB` has received everything `sA` sent on its current chain, as its first chain, and has taken the
next ratchet step; `sA` would take the same step on the answer. -/
structure InStep (sA sB : SessionS) : Prop where
  chain : ∃ cA cB, sA.senderChain = some cA ∧ sB.receiverChains = [cB] ∧
    cB.senderRatchetKey = cA.senderRatchetKey ∧ cB.chainKey = cA.chainKey ∧ cB.messageKeys = []
  step : ∃ cA cB pubA pubB secret, sA.senderChain = some cA ∧ sB.senderChain = some cB ∧
    cA.senderRatchetKey = some (5 :: pubA) ∧ cB.senderRatchetKey = some (5 :: pubB) ∧
    C.dh (cA.senderRatchetKeyPrivate.getD []) pubB = some secret ∧
    C.dh (cB.senderRatchetKeyPrivate.getD []) pubA = some secret ∧
    sB.rootKey = some (ratchetRoot (sA.rootKey.getD []) secret) ∧
    cB.chainKey = some { key := some (ratchetChain (sA.rootKey.getD []) secret), index := some 0 }

end Axolotl.Spec
