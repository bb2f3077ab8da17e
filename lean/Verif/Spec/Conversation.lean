import Verif.Spec.Setup

/-!
# Conversations over an unreliable network

Two parties with an agreed session, called side `true` (the initiator) and side `false`.  Each side encrypts
when it likes; the network delivers any message that was sent, any number of times and in any order, or
never.  Between these events each side may make any other library call that does not touch this session.
-/

namespace Axolotl.Spec
variable [C : Crypto]

/-- The ratchet key and the counter in the clear part of a message. -/
def header (c : Ciphertext) : ECPub × Nat := (c.inner.senderRatchetKey, c.inner.counter)

/-- What the receiving application does with a ciphertext of this type and these bytes. -/
def receive (w : World) (a : Address) (type : Nat) (bytes : Bytes) (seed : Bytes) (seeds : Nat → Bytes) :
    Outcome Bytes :=
  if type = 3 then
    match PreKeyWhisperMessage.parse bytes with
    | .ok m => SessionCipher.decryptPkmsg w a m seed seeds
    | .error e => ⟨[], .error e⟩
  else
    match WhisperMessage.parse bytes with
    | .ok m => SessionCipher.decryptMsg w a m seed seeds
    | .error e => ⟨[], .error e⟩

/-- The counter expected next for ratchet key `k`, after accepting messages with these headers. -/
def nextCounter (log : List (ECPub × Nat)) (k : ECPub) : Nat :=
  log.foldl (fun n h => if h.1 = k then max n (h.2 + 1) else n) 0

/-- The ratchet keys seen, in order of first acceptance, starting from those known at setup. -/
def seenKeys (start : List ECPub) (log : List (ECPub × Nat)) : List ECPub :=
  log.foldl (fun l h => if h.1 ∈ l then l else l ++ [h.1]) start

/-- Whether the receive chain of a key is kept: one of the last five seen. -/
def retained (seen : List ECPub) (k : ECPub) : Prop := k ∈ seen.drop (seen.length - 5)

/-- What is fixed during a conversation: under which address each side knows the other, which receive chains
exist from the start, whether side `false` still waits for the setup message, and the id of the one-time
prekey this message uses. -/
structure Conv where
  addr : Bool → Address
  start : Bool → List ECPub
  waits : Bool
  preKeyId : Option Nat

/-- A moment of a conversation: the stores of both sides, what each side sent (ciphertext and plaintext),
which of the other side's messages each side has accepted (in this order), and the ratchet public keys
generated so far. -/
structure Net where
  world : Bool → World
  sent : Bool → List (Ciphertext × Bytes)
  accepted : Bool → List Nat
  keys : List ECPub

/-- Headers of the messages accepted by side `b`, in order. -/
def Net.log (n : Net) (b : Bool) : List (ECPub × Nat) :=
  (n.accepted b).filterMap fun i => (n.sent (!b))[i]?.map fun m => header m.1

/-- A message not accepted so far may still be delivered: its chain has not been dropped, and it is at most
2000 messages ahead. -/
def Net.inLimits (cv : Conv) (n : Net) (b : Bool) (h : ECPub × Nat) : Prop :=
  (h.1 ∈ seenKeys (cv.start b) (n.log b) → retained (seenKeys (cv.start b) (n.log b)) h.1) ∧
  h.2 ≤ nextCounter (n.log b) h.1 + 2000

/-- An accepted message is still remembered as such. -/
def Net.remembered (cv : Conv) (n : Net) (b : Bool) (h : ECPub × Nat) : Prop :=
  retained (seenKeys (cv.start b) (n.log b)) h.1

/-- One event. -/
inductive Step (cv : Conv) : Net → Net → Prop
  /-- side `b` encrypts (side `false` only once the session exists) -/
  | send {n : Net} {b : Bool} {pt : Bytes} {c : Ciphertext} :
      (cv.waits = true → b = false → n.accepted false ≠ []) → pt.length < 2 ^ 62 →
      (SessionCipher.encrypt (n.world b) (cv.addr b) pt).result = .ok c →
      Step cv n { n with
        world := upd n.world b ((SessionCipher.encrypt (n.world b) (cv.addr b) pt).final (n.world b)),
        sent := upd n.sent b (n.sent b ++ [(c, pt)]) }
  /-- message `i` reaches side `b`, for the first time or again; nothing is assumed about the result -/
  | deliver {n : Net} {b : Bool} {i : Nat} {c : Ciphertext} {pt seed : Bytes} {seeds : Nat → Bytes} :
      (n.sent (!b))[i]? = some (c, pt) →
      (i ∉ n.accepted b → n.inLimits cv b (header c)) → (i ∈ n.accepted b → n.remembered cv b (header c)) →
      seed.length = 32 → C.genPub (C.genPriv seed) ∉ n.keys →
      Step cv n { n with
        world := upd n.world b
          ((receive (n.world b) (cv.addr b) c.getType c.serialize seed seeds).final (n.world b)),
        accepted := upd n.accepted b (if i ∈ n.accepted b then n.accepted b else n.accepted b ++ [i]),
        keys := C.genPub (C.genPriv seed) :: n.keys }
  /-- side `b` makes any call that leaves the session alone, and the prekey if it is offered by `b`, and saves no
  identity key for the peer's name but the peer's own; this includes messages from others, from another device of
  the peer, and messages that are refused -/
  | other {n : Net} {b : Bool} {call : Call} :
      (call.next (n.world b)).sessions (cv.addr b) = (n.world b).sessions (cv.addr b) →
      ((call.next (n.world b)).identities (cv.addr b).1 = (n.world b).identities (cv.addr b).1 ∨
        (call.next (n.world b)).identities (cv.addr b).1 = some (n.world (!b)).identityKeyPair.pub) →
      (b = false → ∀ i, cv.preKeyId = some i → (call.next (n.world b)).preKeys i = (n.world b).preKeys i) →
      Step cv n { n with world := upd n.world b (call.next (n.world b)) }

inductive Steps (cv : Conv) (n : Net) : Net → Prop
  | refl : Steps cv n n
  | step {m m' : Net} : Steps cv n m → Step cv m m' → Steps cv n m'

/-- The application goes on trusting `key` for `name` as long as no other key is saved for it. -/
def Trusting (policy : (String → Option ECPub) → String → ECPub → Bool) (name : String) (key : ECPub) : Prop :=
  ∀ saved : String → Option ECPub, (saved name = none ∨ saved name = some key) → policy saved name key = true

/-- How conversations begin. -/
inductive Start : Conv → Net → Prop
  /-- the owner of `wA` has processed the bundle of the owner of `wB` -/
  | bundle {wA wB : World} {ab ba : Address} {b : PreKeyBundle} {spkId otId : Nat} {spk otk : KeyPair}
      {baseSeed ratchetSeed : Bytes} :
      GoodSelf wA → Published wB b spkId spk (some (otId, otk)) →
      wA.isTrusted ab.1 b.identityKey = true →
      Trusting wB.policy ba.1 wA.identityKeyPair.pub →
      (wB.identities ba.1 = none ∨ wB.identities ba.1 = some wA.identityKeyPair.pub) →
      baseSeed.length = 32 → ratchetSeed.length = 32 →
      (∀ r, wB.sessions ba = some r → ¬ knowsBaseKey r 3 (C.genPub (C.genPriv baseSeed))) →
      spk.pub ≠ C.genPub (C.genPriv ratchetSeed) →
      Start
        { addr := fun s => if s then ab else ba, start := fun s => if s then [spk.pub] else [], waits := true,
          preKeyId := some otId }
        { world := fun s =>
            if s then (SessionBuilder.processPreKeyBundle wA ab b baseSeed ratchetSeed).final wA else wB,
          sent := fun _ => [], accepted := fun _ => [], keys := [spk.pub, C.genPub (C.genPriv ratchetSeed)] }
  /-- the owners of `wA` and `wB` have completed a key exchange; side `true` is the one with the smaller base
  key -/
  | exchange {wA wB : World} {ab ba : Address} {rnd : Nat} {bs rs ss : Bytes}
      {rndB rndA : SessionBuilder.InitiateRand} {ask answer : KeyExchangeMessage} {lt : Bool} {k1 k2 : ECPub} :
      KeyExchange wA wB ab ba rnd bs rs ss rndB rndA →
      (∀ r, wB.sessions ba = some r → r.sessionState.pendingKeyExchange = none) →
      (SessionBuilder.processInitKeyExchangeMessage wA ab rnd bs rs ss).result = .ok ask →
      (SessionBuilder.processKeyExchangeMessage wB ba ask rndB).result = .ok (some answer) →
      Curve.pubLt (C.genPub (C.genPriv bs)) (C.genPub (C.genPriv rndB.baseSeed)) = .ok lt →
      k1 = C.genPub (C.genPriv (if lt then rndB.ratchetSeed else rs)) →
      k2 = C.genPub (C.genPriv (if lt then rndA.sendSeed else rndB.sendSeed)) →
      k1 ≠ k2 →
      Start
        { addr := fun s => if s = lt then ab else ba, start := fun s => if s then [k1] else [], waits := false,
          preKeyId := none }
        { world := fun s =>
            if s = lt then
              (SessionBuilder.processKeyExchangeMessage
                ((SessionBuilder.processInitKeyExchangeMessage wA ab rnd bs rs ss).final wA) ab answer rndA).final
                ((SessionBuilder.processInitKeyExchangeMessage wA ab rnd bs rs ss).final wA)
            else (SessionBuilder.processKeyExchangeMessage wB ba ask rndB).final wB,
          sent := fun _ => [], accepted := fun _ => [], keys := [k1, k2] }

end Axolotl.Spec
