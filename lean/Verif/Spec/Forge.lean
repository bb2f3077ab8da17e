import Verif.Spec.Active
import Verif.Spec.Secrecy

/-!
# What an attacker can forge

C86 assumes of each message of the attacker that it does not carry a MAC which verifies, unless the peer sent it.  Here this is
derived from how the attacker makes their messages: the MAC is computed from what they have (`Derives`), and a computed value is
not by accident the MAC that is needed.
-/

namespace Axolotl.Spec
namespace Term

/-- `k` steps along a chain that begins with the chain key `c` -/
def stepsFrom (c : Term) : Nat → Term
  | 0 => c
  | k + 1 => hmac (stepsFrom c k) (bytes [2])

/-- the MAC key of message number `k` of this chain -/
def macFrom (c : Term) (k : Nat) : Term := block messageKeysInfo (hmac noSalt (hmac (stepsFrom c k) (bytes [1]))) 1

/-- The MAC key of message number `k` after a ratchet step from the root key `r` with a ratchet key that is not of this
conversation; `d` is what it agrees on with ours. -/
def strayMac (r : Term) (d : Bytes) (k : Nat) : Term := macFrom (block ratchetInfo (hmac r (bytes d)) 1) k

/-- The root key of a setup that is not the one of this conversation: `x` is the agreement of the initiator's identity key and
our prekey, `rest` the other agreements. -/
def otherRoot (x : Term) (rest : Bytes) : Term :=
  block textInfo (hmac noSalt (join (bytes (List.replicate 32 0xFF)) (join x (bytes rest)))) 0

/-- The MAC at the end of a message of side `b` that is number `k` of epoch `j`, before it is cut to eight bytes. -/
def tag (s : Term) (b : Bool) (j k : Nat) (body : Bytes) : Term :=
  hmac (macKey s j k) (join (bytes [5]) (join (pub (.identity b)) (join (bytes [5]) (join (pub (.identity !b)) (bytes body)))))

end Term

/-- What the attacker has: what has leaked, and the MACs of the messages sent; `tags b j k body`: side `b` sent message number `k`
of epoch `j`, with these bytes before the MAC.  (All bytes they can see or make up are `Derives.bytes`.) -/
inductive Leak.Sees (l : Leak) (s : Term) (tags : Bool → Nat → Nat → Bytes → Prop) : Term → Prop
  | key {x : KeyName} : l.keys x → Leak.Sees l s tags (.priv x)
  | root {j : Nat} : l.roots j → Leak.Sees l s tags (.root s j)
  | chain {j k : Nat} : l.chains j k → Leak.Sees l s tags (.chain s j k)
  | cipherKey {j k : Nat} : l.messages j k → Leak.Sees l s tags (.cipherKey s j k)
  | macKey {j k : Nat} : l.messages j k → Leak.Sees l s tags (.macKey s j k)
  | iv {j k : Nat} : l.messages j k → Leak.Sees l s tags (.iv s j k)
  | tag {b : Bool} {j k : Nat} {body : Bytes} : tags b j k body → Leak.Sees l s tags (.tag s b j k body)

variable [C : Crypto]

/-- Side `b` has sent a message with this header and these bytes before the MAC. -/
def Tagged (key : KeyName → Bytes) (top : Nat) (n : Net) (b : Bool) (j k : Nat) (body : Bytes) : Prop :=
  ∃ (i : Nat) (c : Ciphertext) (pt mac : Bytes), (n.sent b)[i]? = some (c, pt) ∧ j ≤ top ∧
    header c = (C.genPub (key (.ratchet j)), k) ∧ c.inner.serialized = body ++ mac ∧ mac.length = 8

/-- The terms of the MAC keys that a session state offers for message number `k` under the ratchet key `eph`. -/
inductive Offered (key : KeyName → Bytes) (s : Term) (top : Nat) (st : SessionS) (eph : ECPub) (k : Nat) : Term → Prop
  /-- of a receive chain -/
  | chain {c : ChainS} {j : Nat} : c ∈ st.receiverChains → Labelled key top c j → eph = C.genPub (key (.ratchet j)) →
      Offered key s top st eph k (.macKey s j k)
  /-- of the chain that the peer's next ratchet key opens -/
  | next {c : ChainS} {j : Nat} : st.senderChain = some c → Labelled key top c j → j + 1 ≤ top →
      eph = C.genPub (key (.ratchet (j + 1))) → Offered key s top st eph k (.macKey s (j + 1) k)
  /-- of the chain that any other ratchet key opens -/
  | stray {c : ChainS} {j : Nat} {d : Bytes} : st.senderChain = some c → Labelled key top c j →
      (j + 1 ≤ top → eph ≠ C.genPub (key (.ratchet (j + 1)))) → C.dh (key (.ratchet j)) eph = some d →
      Offered key s top st eph k (.strayMac (.root s j) d k)

/-- The name of the signed prekey of side `b` with id `i`; the one of the setup, with id `spkId`, is the first ratchet key. -/
def spkName (cv : Conv) (spkId : Nat) (b : Bool) (i : Nat) : KeyName :=
  if cv.waits = true ∧ b = false ∧ i = spkId then .ratchet 0 else .signed b i

/-- The prekey message names the base key and prekeys of the setup of this conversation, to the side that waits for it. -/
def OfSetup (key : KeyName → Bytes) (spkId : Nat) (cv : Conv) (b : Bool) (m : PreKeyWhisperMessage) : Prop :=
  cv.waits = true ∧ b = false ∧ m.baseKey = C.genPub (key (.base true)) ∧ m.preKeyId = cv.preKeyId ∧ m.signedPreKeyId = spkId

/-- The terms of the MAC keys that the session offers which a prekey message sets up on side `b`. -/
inductive OfferedFirst (key : KeyName → Bytes) (top spkId : Nat) (cv : Conv) (b : Bool) (m : PreKeyWhisperMessage) : Term → Prop
  /-- the setup of this conversation -/
  | join : OfSetup key spkId cv b m → 1 ≤ top → m.message.senderRatchetKey = C.genPub (key (.ratchet 1)) →
      OfferedFirst key top spkId cv b m (.macKey cv.setup 1 m.message.counter)
  /-- the same with a ratchet key that is not the initiator's -/
  | early {d : Bytes} : OfSetup key spkId cv b m → (1 ≤ top → m.message.senderRatchetKey ≠ C.genPub (key (.ratchet 1))) →
      C.dh (key (.ratchet 0)) m.message.senderRatchetKey = some d →
      OfferedFirst key top spkId cv b m (.strayMac (.root cv.setup 0) d m.message.counter)
  /-- another setup -/
  | other {rest d : Bytes} : ¬ OfSetup key spkId cv b m →
      OfferedFirst key top spkId cv b m
        (.strayMac (.otherRoot (.agree (.identity !b) (spkName cv spkId b m.signedPreKeyId)) rest) d m.message.counter)

/-- The names fit the conversation at the moment `n`. -/
structure Named (key : KeyName → Bytes) (top spkId : Nat) (cv : Conv) (n : Net) : Prop where
  describes : Describes key cv.setup top cv n
  /-- the sides take turns with the ratchet keys: side `true` has the odd ones -/
  turns : ∀ b i j k, Placed key top n b i j k → (j % 2 = 1 ↔ b = true)
  mine : ∀ b r c j, n.joined cv b → (n.world b).sessions (cv.addr b) = some r → r.sessionState.senderChain = some c →
    Labelled key top c j → (j % 2 = 1 ↔ b = true)
  theirs : ∀ b r c j, n.joined cv b → (n.world b).sessions (cv.addr b) = some r → c ∈ r.sessionState.receiverChains →
    Labelled key top c j → (j % 2 = 1 ↔ b = false)
  /-- the prekeys in the stores -/
  signed : ∀ b i r k, (n.world b).signedPreKeys i = some r → PairOf r.publicKey r.privateKey k → k.priv = key (spkName cv spkId b i)
  oneTime : ∀ i r k, cv.preKeyId = some i → (n.world false).preKeys i = some r → PairOf r.publicKey r.privateKey k →
    k.priv = key .oneTime
  base : cv.waits = true → (key (.base true)).length = 32
  /-- the setup message, as it was sent and as it was answered -/
  announced : ∀ (i : Nat) (p : PreKeyWhisperMessage) (pt : Bytes), (n.sent true)[i]? = some (.preKey p, pt) →
    cv.waits = true ∧ p.baseKey = C.genPub (key (.base true)) ∧ p.preKeyId = cv.preKeyId ∧ p.signedPreKeyId = spkId
  answered : ∀ r, cv.waits = true → n.accepted false ≠ [] → (n.world false).sessions (cv.addr false) = some r →
    r.sessionState.aliceBaseKey = some (5 :: C.genPub (key (.base true)))

/-- The attacker has computed the MAC of `m` from what they have.  And that was no accident: if it verifies on the session state,
then what they computed is the MAC under one of the keys in `offered` of what the MAC has to cover. -/
def Computed (key : KeyName → Bytes) (K offered : Term → Prop) (st : SessionS) (m : WhisperMessage) : Prop :=
  ∃ (body : Bytes) (t : Term), m.serialized = body ++ (t.value key fun _ _ => []).take 8 ∧ Derives K t ∧
    (Verifies st m → ∃ (M y : Term) (them me : ECPub), offered M ∧ t = .hmac M y ∧ KeyOf st.remoteIdentityPublic them ∧
      KeyOf st.localIdentityPublic me ∧ y.value key (fun _ _ => []) = (5 :: them) ++ (5 :: me) ++ body)

/-- A session message to side `b` from an attacker who computes.  As in C86 it is assumed that other states in the record reject it,
and that copies of what was sent are delivered within the limits. -/
structure Crafted (key : KeyName → Bytes) (top : Nat) (cv : Conv) (n : Net) (l : Leak) (b : Bool) (m : WhisperMessage) : Prop where
  computed : ∀ r, n.joined cv b → (n.world b).sessions (cv.addr b) = some r →
    Computed key (l.Sees cv.setup (Tagged key top n)) (Offered key cv.setup top r.sessionState m.senderRatchetKey m.counter)
      r.sessionState m
  limits : ∀ r, n.joined cv b → (n.world b).sessions (cv.addr b) = some r → Verifies r.sessionState m →
    ∀ i c pt, (n.sent (!b))[i]? = some (c, pt) → c.inner.serialized = m.serialized →
      (i ∉ n.accepted b → n.inLimits cv b (header c)) ∧ (i ∈ n.accepted b → n.remembered cv b (header c))
  before : ∀ r, ¬ n.joined cv b → (n.world b).sessions (cv.addr b) = some r → Rejects m r.sessionState
  previous : ∀ r, (n.world b).sessions (cv.addr b) = some r → ∀ s ∈ r.previousStates, Rejects m s

/-- A prekey message to side `b` from an attacker who computes. -/
structure CraftedSetup (key : KeyName → Bytes) (top spkId : Nat) (cv : Conv) (n : Net) (l : Leak) (b : Bool)
    (m : PreKeyWhisperMessage) : Prop where
  inner : Crafted key top cv n l b m.message
  pinned : (n.world b).isTrusted (cv.addr b).1 m.identityKey = true → m.identityKey = (n.world (!b)).identityKeyPair.pub
  setup : (n.world b).isTrusted (cv.addr b).1 m.identityKey = true → ¬ alreadyKnown (n.world b) (cv.addr b) m →
    ∀ s, SetUp (n.world b) m s →
      Computed key (l.Sees cv.setup (Tagged key top n)) (OfferedFirst key top spkId cv b m) s m.message ∧
      (Verifies s m.message → ∀ (i : Nat) (c : Ciphertext) (pt : Bytes), (n.sent (!b))[i]? = some (c, pt) → c.inner.serialized = m.message.serialized →
        n.inLimits cv b (header c))

/-- What an attacker who computes may deliver to side `b`. -/
def Craft (key : KeyName → Bytes) (top spkId : Nat) (cv : Conv) (n : Net) (l : Leak) (b : Bool) (type : Nat) (bytes : Bytes) : Prop :=
  if type = 3 then ∀ m, PreKeyWhisperMessage.parse bytes = .ok m → CraftedSetup key top spkId cv n l b m
  else ∀ m, WhisperMessage.parse bytes = .ok m → Crafted key top cv n l b m

/-- What must not have leaked, so that side `b` is not deceived: nothing of the session states; not enough private keys to compute
the setup; not the identity key of the peer and not the signed prekeys of side `b`. -/
structure Outside (l : Leak) (cv : Conv) (spkId : Nat) (b : Bool) : Prop where
  states : (∀ j, ¬ l.roots j) ∧ (∀ j k, ¬ l.chains j k) ∧ ∀ j k, ¬ l.messages j k
  setup : ¬ (if cv.waits then l.setup (.ratchet 0) (some .oneTime) else l.setup (.base false) none)
  identity : ¬ l.keys (.identity !b)
  signed : ∀ i, ¬ l.keys (spkName cv spkId b i)

/-- One event: one of those without an attacker, or an attacker delivers what they have computed from what has leaked and from the
messages sent so far. -/
inductive CStep (cv : Conv) : Net → Net → Prop
  | honest {n n' : Net} : Step cv n n' → CStep cv n n'
  | craft {n : Net} {key : KeyName → Bytes} {top spkId : Nat} {l : Leak} {b : Bool} {type : Nat} {bytes seed : Bytes}
      {seeds : Nat → Bytes} {acc : List Nat} :
      Named key top spkId cv n → Outside l cv spkId b → Craft key top spkId cv n l b type bytes →
      seed.length = 32 → (seeds 0).length = 32 →
      C.genPub (C.genPriv seed) ∉ n.keys → C.genPub (C.genPriv (seeds 0)) ∉ n.keys →
      Recorded n b type bytes (receive (n.world b) (cv.addr b) type bytes seed seeds).result acc →
      CStep cv n { n with
        world := upd n.world b ((receive (n.world b) (cv.addr b) type bytes seed seeds).final (n.world b)),
        accepted := upd n.accepted b acc,
        keys := C.genPub (C.genPriv seed) :: C.genPub (C.genPriv (seeds 0)) :: n.keys }

inductive CSteps (cv : Conv) (n : Net) : Net → Prop
  | refl : CSteps cv n n
  | step {m m' : Net} : CSteps cv n m → CStep cv m m' → CSteps cv n m'

end Axolotl.Spec
