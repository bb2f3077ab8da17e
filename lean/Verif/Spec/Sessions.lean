import Verif.Spec.Conversation
import Verif.Spec.Format

/-!
# Any number of sessions between two parties

Two parties, `true` and `false`.  Either of them starts a new session with the other whenever it likes, by processing a bundle
the other has published; so there can be several sessions at once, and both parties may start one at the same time.  Each party
has one session record for the other, with the current session and the archived ones in it.  As in `Verif/Spec/Conversation.lean`,
the network loses, repeats and reorders messages.
-/

namespace Axolotl.Spec
variable [C : Crypto]

/-- One session: who started it, its base key, the prekeys used, what each party sent in it (ciphertext and plaintext), and which
of the other party's messages each party has accepted, in this order. -/
structure Talk where
  starter : Bool
  baseKey : ECPub
  signedPreKey : ECPub
  preKeyId : Nat
  sent : Bool → List (Ciphertext × Bytes)
  accepted : Bool → List Nat

namespace Talk

/-- Headers of the messages accepted by party `b`, in order. -/
def log (t : Talk) (b : Bool) : List (ECPub × Nat) :=
  (t.accepted b).filterMap fun i => (t.sent (!b))[i]?.map fun m => header m.1

/-- The ratchet keys of the other party seen by `b` in this session. -/
def seen (t : Talk) (b : Bool) : List ECPub := seenKeys (if b = t.starter then [t.signedPreKey] else []) (t.log b)

/-- A message not accepted so far may still be delivered: its chain has not been dropped, and it is at most 2000 messages ahead. -/
def inLimits (t : Talk) (b : Bool) (h : ECPub × Nat) : Prop :=
  (h.1 ∈ t.seen b → retained (t.seen b) h.1) ∧ h.2 ≤ nextCounter (t.log b) h.1 + 2000

/-- An accepted message is still remembered as such. -/
def remembered (t : Talk) (b : Bool) (h : ECPub × Nat) : Prop := retained (t.seen b) h.1

/-- Party `b` has this session. -/
def joined (t : Talk) (b : Bool) : Prop := b = t.starter ∨ t.accepted b ≠ []

end Talk

/-- A moment: the stores of both parties, the sessions in the order in which they were started, the session that each party uses
for sending, and the ratchet public keys that may have been generated so far. -/
structure Pair where
  world : Bool → World
  talks : List Talk
  current : Bool → Option Nat
  keys : ECPub → Prop

/-- The session states in the record for `a`, the current one first. -/
def statesAt (w : World) (a : Address) : List SessionState :=
  match w.sessions a with
  | none => []
  | some r => r.sessionState :: r.previousStates

/-- The state belongs to the session with this base key. -/
def ofBase (k : ECPub) (s : SessionState) : Prop := s.sessionVersion = some 3 ∧ s.aliceBaseKey = some (5 :: k)

/-- The states of other sessions refuse the message: it does not authenticate there. -/
def RefusedElsewhere (states : List SessionState) (k : ECPub) (m : WhisperMessage) : Prop :=
  ∀ s ∈ states, ¬ ofBase k s → ∀ seed : Bytes, seed.length = 32 →
    SessionCipher.decryptWithSessionState s m seed = .error .invalidMessage

/-- A message is foreign to a state: its ratchet key is new there, the agreement with it can be computed, and the message carries
no valid MAC for the keys that the state would use. -/
structure Foreign (s : SessionState) (m : WhisperMessage) : Prop where
  unknown : ∀ c ∈ s.receiverChains, ¬ KeyOf c.senderRatchetKey m.senderRatchetKey
  agreement : ∀ c, s.senderChain = some c → ∃ d, C.dh (c.senderRatchetKeyPrivate.getD []) m.senderRatchetKey = some d
  forged : ∀ k1 k2 k3 them me body, MessageKey s m.senderRatchetKey m.counter k1 k2 k3 → KeyOf s.remoteIdentityPublic them →
    KeyOf s.localIdentityPublic me → m.serialized ≠ body ++ (C.hmac k2 ((5 :: them) ++ (5 :: me) ++ body)).take 8

/-- The keys that a call of `decrypt` may generate. -/
def drawn (seed : Bytes) (seeds : Nat → Bytes) (k : ECPub) : Prop :=
  k = C.genPub (C.genPriv seed) ∨ ∃ j, k = C.genPub (C.genPriv (seeds j))

/-- What can happen; `addr b` is the address under which party `b` knows the other. -/
inductive PairStep (addr : Bool → Address) : Pair → Pair → Prop
  /-- party `b` starts a session with a bundle of the other party, which offers a one-time prekey not used before; the generated
  keys are new -/
  | start {p : Pair} {b : Bool} {bundle : PreKeyBundle} {spkId otId : Nat} {spk otk : KeyPair} {baseSeed ratchetSeed : Bytes} :
      Published (p.world !b) bundle spkId spk (some (otId, otk)) →
      (∀ t ∈ p.talks, t.starter = b → t.preKeyId ≠ otId) →
      baseSeed.length = 32 → ratchetSeed.length = 32 →
      (∀ a, ∀ s ∈ statesAt (p.world a) (addr a), ¬ ofBase (C.genPub (C.genPriv baseSeed)) s) →
      (∀ t ∈ p.talks, t.baseKey ≠ C.genPub (C.genPriv baseSeed)) →
      spk.pub ≠ C.genPub (C.genPriv ratchetSeed) →
      PairStep addr p
        { world := upd p.world b
            ((SessionBuilder.processPreKeyBundle (p.world b) (addr b) bundle baseSeed ratchetSeed).final (p.world b)),
          talks := p.talks ++ [⟨b, C.genPub (C.genPriv baseSeed), spk.pub, otId, fun _ => [], fun _ => []⟩],
          current := upd p.current b (some p.talks.length),
          keys := fun k => p.keys k ∨ k = spk.pub ∨ k = C.genPub (C.genPriv ratchetSeed) }
  /-- party `b` encrypts; the message belongs to the session it uses for sending -/
  | send {p : Pair} {b : Bool} {k : Nat} {t : Talk} {pt : Bytes} {c : Ciphertext} :
      p.current b = some k → p.talks[k]? = some t → pt.length < 2 ^ 62 →
      (SessionCipher.encrypt (p.world b) (addr b) pt).result = .ok c →
      PairStep addr p { p with
        world := upd p.world b ((SessionCipher.encrypt (p.world b) (addr b) pt).final (p.world b)),
        talks := p.talks.set k { t with sent := upd t.sent b (t.sent b ++ [(c, pt)]) } }
  /-- message `i` of session `k` reaches party `b`, for the first time or again; nothing is assumed about the result.  If the
  party has joined the session, the session has not been dropped from its record. -/
  | deliver {p : Pair} {b : Bool} {k i : Nat} {t : Talk} {c : Ciphertext} {pt seed : Bytes} {seeds : Nat → Bytes} :
      p.talks[k]? = some t → (t.sent (!b))[i]? = some (c, pt) →
      (i ∉ t.accepted b → t.inLimits b (header c)) → (i ∈ t.accepted b → t.remembered b (header c)) →
      (t.joined b → (∃ s ∈ statesAt (p.world b) (addr b), ofBase t.baseKey s) ∧
        RefusedElsewhere (statesAt (p.world b) (addr b)) t.baseKey c.inner) →
      seed.length = 32 → (∀ j, (seeds j).length = 32) → (∀ x, drawn seed seeds x → ¬ p.keys x) →
      PairStep addr p
        { world := upd p.world b ((receive (p.world b) (addr b) c.getType c.serialize seed seeds).final (p.world b)),
          talks := p.talks.set k { t with
            accepted := upd t.accepted b (if i ∈ t.accepted b then t.accepted b else t.accepted b ++ [i]) },
          current := if i ∈ t.accepted b then p.current else upd p.current b (some k),
          keys := fun x => p.keys x ∨ drawn seed seeds x }
  /-- party `b` makes any call that leaves the record for the other party, its saved identity and the prekeys of these sessions
  alone -/
  | other {p : Pair} {b : Bool} {call : Call} :
      (call.next (p.world b)).sessions (addr b) = (p.world b).sessions (addr b) →
      (call.next (p.world b)).identities (addr b).1 = (p.world b).identities (addr b).1 →
      (∀ t ∈ p.talks, t.starter ≠ b → (call.next (p.world b)).preKeys t.preKeyId = (p.world b).preKeys t.preKeyId) →
      PairStep addr p { p with world := upd p.world b (call.next (p.world b)) }

inductive PairSteps (addr : Bool → Address) (p : Pair) : Pair → Prop
  | refl : PairSteps addr p p
  | step {q q' : Pair} : PairSteps addr p q → PairStep addr q q' → PairSteps addr p q'

/-- The beginning: well-formed identities that the parties trust; whatever else is in the stores. -/
structure PairStart (addr : Bool → Address) (p : Pair) : Prop where
  none : p.talks = []
  nothing : ∀ b, p.current b = Option.none
  self : ∀ b, GoodSelf (p.world b)
  trusting : ∀ b, Trusting (p.world b).policy (addr b).1 (p.world !b).identityKeyPair.pub
  saved : ∀ b, (p.world b).identities (addr b).1 = Option.none ∨
    (p.world b).identities (addr b).1 = some (p.world !b).identityKeyPair.pub

end Axolotl.Spec
