import Verif.Model.SessionRecord

/-! # axolotl/ratchet/ratchetingsession.py and the parameter objects

The builders (`AliceAxolotlParameters.Builder` etc.) only collect arguments; `create` raises on a
missing mandatory argument, which no caller omits.  They are modelled by structures; the builders themselves
are in `Model/Objects.lean`. -/

namespace Axolotl
variable [Crypto]
open ByteUtil

/-- axolotl/ratchet/aliceaxolotlparameters.py:4-24 -/
structure AliceParameters where
  ourIdentityKey : KeyPair
  ourBaseKey : KeyPair
  theirIdentityKey : ECPub
  theirSignedPreKey : ECPub
  theirRatchetKey : ECPub
  theirOneTimePreKey : Option ECPub

/-- axolotl/ratchet/bobaxolotlparamaters.py:4-24 -/
structure BobParameters where
  ourIdentityKey : KeyPair
  ourSignedPreKey : KeyPair
  ourRatchetKey : KeyPair
  ourOneTimePreKey : Option KeyPair
  theirIdentityKey : ECPub
  theirBaseKey : ECPub

/-- axolotl/ratchet/symmetricaxolotlparameters.py:4-24 -/
structure SymmetricParameters where
  ourBaseKey : KeyPair
  ourRatchetKey : KeyPair
  ourIdentityKey : KeyPair
  theirBaseKey : ECPub
  theirRatchetKey : ECPub
  theirIdentityKey : ECPub

namespace RatchetingSession

/-- axolotl/ratchet/ratchetingsession.py:102-104 -/
def discontinuityBytes : Bytes := List.replicate 32 0xFF

/-- the info string of axolotl/ratchet/ratchetingsession.py:109 -/
def TEXT_INFO : Bytes := ascii "WhisperText"

/-- axolotl/ratchet/ratchetingsession.py:106-112 -/
def calculateDerivedKeys (masterSecret : Bytes) : RootKey × ChainKey :=
  let derived := split2 (Kdf.v3.deriveSecrets masterSecret TEXT_INFO 64) 32 32
  ({ kdf := .v3, key := derived.1 }, { kdf := .v3, key := derived.2, index := 0 })

/-- axolotl/ratchet/ratchetingsession.py:50-63: the secrets on Alice's side -/
def aliceSecrets (p : AliceParameters) : Res Bytes := do
  let a1 ← Curve.calculateAgreement p.theirSignedPreKey p.ourIdentityKey.priv
  let a2 ← Curve.calculateAgreement p.theirIdentityKey p.ourBaseKey.priv
  let a3 ← Curve.calculateAgreement p.theirSignedPreKey p.ourBaseKey.priv
  let a4 ← match p.theirOneTimePreKey with
    | none => .ok []
    | some k => Curve.calculateAgreement k p.ourBaseKey.priv
  .ok (discontinuityBytes ++ a1 ++ a2 ++ a3 ++ a4)

/-- axolotl/ratchet/ratchetingsession.py:39-70; `seed` is the randomness of `sendingRatchetKey`. -/
def initializeSessionAsAlice (s : SessionState) (p : AliceParameters) (seed : Bytes) :
    Res SessionState := do
  let s := s.setSessionVersion CiphertextMessage.CURRENT_VERSION
  let s := s.setRemoteIdentityKey p.theirIdentityKey
  let s := s.setLocalIdentityKey p.ourIdentityKey.pub
  let sendingRatchetKey := Curve.generateKeyPair seed
  let secrets ← aliceSecrets p
  let derivedKeys := calculateDerivedKeys secrets
  let sendingChain ← derivedKeys.1.createChain p.theirRatchetKey sendingRatchetKey
  let s ← s.addReceiverChain p.theirRatchetKey derivedKeys.2
  let s ← s.setSenderChain sendingRatchetKey sendingChain.2
  .ok (s.setRootKey sendingChain.1)

/-- axolotl/ratchet/ratchetingsession.py:82-95: the secrets on Bob's side -/
def bobSecrets (p : BobParameters) : Res Bytes := do
  let a1 ← Curve.calculateAgreement p.theirIdentityKey p.ourSignedPreKey.priv
  let a2 ← Curve.calculateAgreement p.theirBaseKey p.ourIdentityKey.priv
  let a3 ← Curve.calculateAgreement p.theirBaseKey p.ourSignedPreKey.priv
  let a4 ← match p.ourOneTimePreKey with
    | none => .ok []
    | some k => Curve.calculateAgreement p.theirBaseKey k.priv
  .ok (discontinuityBytes ++ a1 ++ a2 ++ a3 ++ a4)

/-- axolotl/ratchet/ratchetingsession.py:72-100 -/
def initializeSessionAsBob (s : SessionState) (p : BobParameters) : Res SessionState := do
  let s := s.setSessionVersion CiphertextMessage.CURRENT_VERSION
  let s := s.setRemoteIdentityKey p.theirIdentityKey
  let s := s.setLocalIdentityKey p.ourIdentityKey.pub
  let secrets ← bobSecrets p
  let derivedKeys := calculateDerivedKeys secrets
  let s ← s.setSenderChain p.ourRatchetKey derivedKeys.2
  .ok (s.setRootKey derivedKeys.1)

/-- axolotl/ratchet/ratchetingsession.py:114-120 -/
def isAlice (ourKey theirKey : ECPub) : Res Bool := Curve.pubLt ourKey theirKey

/-- axolotl/ratchet/ratchetingsession.py:14-37.  As Alice, `ourRatchetKey` is not used. -/
def initializeSession (s : SessionState) (p : SymmetricParameters) (seed : Bytes) :
    Res SessionState := do
  if ← isAlice p.ourBaseKey.pub p.theirBaseKey then
    initializeSessionAsAlice s
      { ourBaseKey := p.ourBaseKey, ourIdentityKey := p.ourIdentityKey,
        theirRatchetKey := p.theirRatchetKey, theirIdentityKey := p.theirIdentityKey,
        theirSignedPreKey := p.theirBaseKey, theirOneTimePreKey := none } seed
  else
    initializeSessionAsBob s
      { ourIdentityKey := p.ourIdentityKey, ourRatchetKey := p.ourRatchetKey,
        ourSignedPreKey := p.ourBaseKey, ourOneTimePreKey := none,
        theirBaseKey := p.theirBaseKey, theirIdentityKey := p.theirIdentityKey }

end RatchetingSession
end Axolotl
