import Verif.Spec.Active

/-!
# Any number of parties

Every party has its own stores, and talks with any number of other parties, in conversations as in `Verif.Spec.Conversation`, with
an attacker as in `Verif.Spec.Active`.  All conversations of a party share its stores.  A device counts as a party; two devices of
one person may be known under the same name, if they have the same identity key.
-/

namespace Axolotl.Spec
variable [C : Crypto] {P : Type}

/-- One conversation: who the two sides are, what is fixed, and what happened so far. -/
structure Chat (P : Type) where
  party : Bool → P
  cv : Conv
  sent : Bool → List (Ciphertext × Bytes)
  accepted : Bool → List Nat
  keys : List ECPub

/-- A conversation as its two sides see it. -/
def Chat.net (world : P → World) (t : Chat P) : Net :=
  { world := fun b => world (t.party b), sent := t.sent, accepted := t.accepted, keys := t.keys }

/-- The stores of everybody, and all conversations begun so far. -/
structure System (P : Type) where
  world : P → World
  chats : List (Chat P)

/-- Two conversations of one party: different addresses, the same name only for one identity key, and different one-time prekeys
(the prekey of last resort may serve for many). -/
structure Separate (world : P → World) (t u : Chat P) : Prop where
  addr : ∀ a b, t.party a = u.party b → t.cv.addr a ≠ u.cv.addr b
  name : ∀ a b, t.party a = u.party b → (t.cv.addr a).1 = (u.cv.addr b).1 →
    (world (t.party !a)).identityKeyPair.pub = (world (u.party !b)).identityKeyPair.pub
  preKey : t.party false = u.party false → ∀ i, t.cv.preKeyId = some i → i ≠ 0xFFFFFF → u.cv.preKeyId ≠ some i

/-- Calls for one address that decrypt no prekey message and save no identity key for its name but this one. -/
inductive Builds (a : Address) (key : ECPub) (w : World) : World → Prop
  | refl : Builds a key w w
  | step {w' : World} {c : Call} : Builds a key w w' → c.addr = a → (∀ a m seed seeds, c ≠ .decryptPkmsg a m seed seeds) →
      ((c.next w').identities a.1 = w'.identities a.1 ∨ (c.next w').identities a.1 = some key) → Builds a key w (c.next w')

/-- What can be seen of an event: that a party encrypts something for another one, or what it gets for something delivered to it as
coming from another one. -/
inductive SysEvent (P : Type)
  | sent (sender recipient : P) (pt : Bytes)
  | received (recipient sender : P) (result : Res Bytes)
  | unseen

/-- One event; `A` says what an attacker may deliver to a side of a conversation at a moment of it. -/
inductive SysStepBy [DecidableEq P] (A : Chat P → Net → Bool → Nat → Bytes → Prop) : System P → SysEvent P → System P → Prop
  /-- two parties begin a conversation, from a bundle or by a key exchange -/
  | start {s : System P} {t : Chat P} {world : P → World} :
      t.party true ≠ t.party false → (∀ u ∈ s.chats, Separate s.world t u) →
      (∀ b, Builds (t.cv.addr b) (s.world (t.party !b)).identityKeyPair.pub (s.world (t.party b)) (world (t.party b))) →
      (∀ p, p ≠ t.party true → p ≠ t.party false → world p = s.world p) →
      Start t.cv (t.net world) →
      SysStepBy A s .unseen { world := world, chats := s.chats ++ [t] }
  /-- side `b` of conversation `k` encrypts -/
  | send {s : System P} {k : Nat} {t : Chat P} {b : Bool} {pt : Bytes} {c : Ciphertext} :
      s.chats[k]? = some t → (t.net s.world).joined t.cv b → pt.length < 2 ^ 62 →
      (SessionCipher.encrypt (s.world (t.party b)) (t.cv.addr b) pt).result = .ok c →
      SysStepBy A s (.sent (t.party b) (t.party !b) pt)
        { world := upd s.world (t.party b)
            ((SessionCipher.encrypt (s.world (t.party b)) (t.cv.addr b) pt).final (s.world (t.party b)))
          chats := s.chats.set k { t with sent := upd t.sent b (t.sent b ++ [(c, pt)]) } }
  /-- message `i` of conversation `k` reaches side `b` -/
  | deliver {s : System P} {k : Nat} {t : Chat P} {b : Bool} {i : Nat} {c : Ciphertext} {pt seed : Bytes} {seeds : Nat → Bytes} :
      s.chats[k]? = some t → (t.sent (!b))[i]? = some (c, pt) →
      (i ∉ t.accepted b → (t.net s.world).inLimits t.cv b (header c)) →
      (i ∈ t.accepted b → (t.net s.world).remembered t.cv b (header c)) →
      seed.length = 32 → C.genPub (C.genPriv seed) ∉ t.keys →
      SysStepBy A s (.received (t.party b) (t.party !b)
          (receive (s.world (t.party b)) (t.cv.addr b) c.getType c.serialize seed seeds).result)
        { world := upd s.world (t.party b)
            ((receive (s.world (t.party b)) (t.cv.addr b) c.getType c.serialize seed seeds).final (s.world (t.party b)))
          chats := s.chats.set k { t with
            accepted := upd t.accepted b (if i ∈ t.accepted b then t.accepted b else t.accepted b ++ [i])
            keys := C.genPub (C.genPriv seed) :: t.keys } }
  /-- the attacker delivers anything to side `b` of conversation `k`, but uses up no prekey that another conversation needs -/
  | attack {s : System P} {k : Nat} {t : Chat P} {b : Bool} {type : Nat} {bytes seed : Bytes} {seeds : Nat → Bytes}
      {acc : List Nat} :
      s.chats[k]? = some t → A t (t.net s.world) b type bytes → seed.length = 32 → (seeds 0).length = 32 →
      C.genPub (C.genPriv seed) ∉ t.keys → C.genPub (C.genPriv (seeds 0)) ∉ t.keys →
      Recorded (t.net s.world) b type bytes (receive (s.world (t.party b)) (t.cv.addr b) type bytes seed seeds).result acc →
      (∀ u ∈ s.chats, u.party false = t.party b → ∀ i, u.cv.preKeyId = some i → (b = false → t.cv.preKeyId ≠ some i) →
        ((receive (s.world (t.party b)) (t.cv.addr b) type bytes seed seeds).final (s.world (t.party b))).preKeys i =
          (s.world (t.party b)).preKeys i) →
      SysStepBy A s (.received (t.party b) (t.party !b)
          (receive (s.world (t.party b)) (t.cv.addr b) type bytes seed seeds).result)
        { world := upd s.world (t.party b)
            ((receive (s.world (t.party b)) (t.cv.addr b) type bytes seed seeds).final (s.world (t.party b)))
          chats := s.chats.set k { t with
            accepted := upd t.accepted b acc
            keys := C.genPub (C.genPriv seed) :: C.genPub (C.genPriv (seeds 0)) :: t.keys } }
  /-- somebody makes a call that leaves all their conversations alone -/
  | other {s : System P} {p : P} {call : Call} :
      (∀ t ∈ s.chats, ∀ b, t.party b = p →
        (call.next (s.world p)).sessions (t.cv.addr b) = (s.world p).sessions (t.cv.addr b) ∧
        ((call.next (s.world p)).identities (t.cv.addr b).1 = (s.world p).identities (t.cv.addr b).1 ∨
          (call.next (s.world p)).identities (t.cv.addr b).1 = some (s.world (t.party !b)).identityKeyPair.pub) ∧
        (b = false → ∀ i, t.cv.preKeyId = some i → (call.next (s.world p)).preKeys i = (s.world p).preKeys i)) →
      SysStepBy A s .unseen { world := upd s.world p (call.next (s.world p)), chats := s.chats }

/-- What can come of any stores in which no conversation has begun. -/
inductive SysReachBy [DecidableEq P] (A : Chat P → Net → Bool → Nat → Bytes → Prop) : System P → Prop
  | init {world : P → World} : SysReachBy A { world := world, chats := [] }
  | step {s s' : System P} {e : SysEvent P} : SysReachBy A s → SysStepBy A s e s' → SysReachBy A s'

/-- With an attacker as in C86. -/
abbrev SysStep [DecidableEq P] : System P → SysEvent P → System P → Prop := SysStepBy fun t n b type bytes => Attack t.cv n b type bytes
abbrev SysReach [DecidableEq P] : System P → Prop := SysReachBy fun t n b type bytes => Attack t.cv n b type bytes

end Axolotl.Spec
