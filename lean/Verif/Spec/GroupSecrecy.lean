import Verif.Spec.Room

/-!
# What an attacker can compute in a group

As in `Verif.Spec.Secrecy`, for the messages sent under one sender-key name.  `GTerm.value` says which bytes a term stands for.
-/

namespace Axolotl.Spec

inductive GTerm
  | bytes (b : Bytes)
  /-- the chain key that `create` draws -/
  | seed
  /-- the private signing key of the sender -/
  | signing
  | join (s t : GTerm)
  | hmac (key message : GTerm)
  /-- AES with the IV and key that are cut out of `keys` -/
  | enc (keys message : GTerm)
  /-- a signature of the sender -/
  | sig (message : GTerm)
  /-- the plaintext of message number `i` -/
  | text (i : Nat)

/-- What can be computed from the terms in `K`. -/
inductive GDerives (K : GTerm → Prop) : GTerm → Prop
  | has {t : GTerm} : K t → GDerives K t
  | bytes (b : Bytes) : GDerives K (.bytes b)
  | join {s t : GTerm} : GDerives K s → GDerives K t → GDerives K (.join s t)
  | fst {s t : GTerm} : GDerives K (.join s t) → GDerives K s
  | snd {s t : GTerm} : GDerives K (.join s t) → GDerives K t
  | hmac {k m : GTerm} : GDerives K k → GDerives K m → GDerives K (.hmac k m)
  | enc {k m : GTerm} : GDerives K k → GDerives K m → GDerives K (.enc k m)
  | dec {k m : GTerm} : GDerives K (.enc k m) → GDerives K k → GDerives K m
  | sign {m : GTerm} : GDerives K .signing → GDerives K m → GDerives K (.sig m)

namespace GTerm

/-- chain key number `k` -/
def chain : Nat → GTerm
  | 0 => seed
  | k + 1 => hmac (chain k) (bytes [2])

/-- the seed of message number `k` -/
def messageSeed (k : Nat) : GTerm := hmac (chain k) (bytes [1])

/-- HKDF without salt (RFC 5869): what the keys are expanded from, and the two blocks -/
def material (k : Nat) : GTerm := hmac (bytes (List.replicate 32 0)) (messageSeed k)
def block1 (k : Nat) : GTerm := hmac (material k) (join (bytes groupInfo) (bytes [1]))
def block2 (k : Nat) : GTerm := hmac (material k) (join (block1 k) (join (bytes groupInfo) (bytes [2])))
def keys (k : Nat) : GTerm := join (block1 k) (block2 k)

/-- What is sent for message number `i`: a header, the ciphertext, and a signature of both. -/
def body (i : Nat) (header : Bytes) : GTerm := join (bytes header) (enc (keys i) (text i))
def wire (i : Nat) (header : Bytes) : GTerm := join (body i header) (sig (body i header))

/-- The bytes a term stands for; `rand` is the randomness of signatures. -/
def value [C : Crypto] (K : Bytes) (p : ECPriv) (pt : Nat → Bytes) (rand : Bytes → Bytes) : GTerm → Bytes
  | bytes b => b
  | seed => K
  | signing => p
  | join s t => s.value K p pt rand ++ t.value K p pt rand
  | hmac k m => C.hmac (k.value K p pt rand) (m.value K p pt rand)
  | enc k m => match AES.encrypt (((k.value K p pt rand).take 48).drop 16) ((k.value K p pt rand).take 16) (m.value K p pt rand) with
    | .ok c => c
    | .error _ => []
  | sig m => (C.calcSig (rand (m.value K p pt rand)) p (m.value K p pt rand)).getD []
  | text i => pt i

end GTerm

/-- What has leaked: chain keys, seeds of single messages, the signing key, and plaintexts. -/
structure GLeak where
  chains : Nat → Prop
  seeds : Nat → Prop
  signing : Prop
  texts : Nat → Prop

/-- The terms that an attacker has who sees the first `count` messages, with these headers, and what has leaked. -/
inductive GLeak.Has (l : GLeak) (headers : Nat → Bytes) (count : Nat) : GTerm → Prop
  | chain {k : Nat} : l.chains k → GLeak.Has l headers count (.chain k)
  | seed {k : Nat} : l.seeds k → GLeak.Has l headers count (.messageSeed k)
  | signing : l.signing → GLeak.Has l headers count .signing
  | text {i : Nat} : l.texts i → GLeak.Has l headers count (.text i)
  | wire {i : Nat} : i < count → GLeak.Has l headers count (.wire i (headers i))

/-- Whether the keys of a message can be computed. -/
def GLeak.reads (l : GLeak) (i : Nat) : Prop := l.seeds i ∨ ∃ k ≤ i, l.chains k

section
variable {M : Type}

/-- What the attacker gets who reads the stored records of the members in `T` for a name, going by the numbers in them, and
who has got hold of the announcements made after `k` messages with `k` in `intercepted`, and the plaintexts in `texts`. -/
def groupTheft (n : SenderKeyName) (S : M → GroupStore) (T : M → Prop) (intercepted texts : Nat → Prop) : GLeak where
  chains k := intercepted k ∨ ∃ m s, T m ∧ s ∈ (S m n).senderKeyStates ∧ iterationOf s = k
  seeds k := ∃ m s, T m ∧ s ∈ (S m n).senderKeyStates ∧ k ∈ pending s
  signing := ∃ m s, T m ∧ s ∈ (S m n).senderKeyStates ∧ (s.senderSigningKey.getD {}).priv.getD [] ≠ []
  texts := texts

variable [C : Crypto]

/-- The stored records, announcements and messages of a name are what the terms say, if the first chain key is `K` and the
public signing key `pub`. -/
structure GroupDescribes (K : Bytes) (pub : ECPub) (n : SenderKeyName) (S : M → GroupStore) (log : RoomLog M) : Prop where
  chain : ∀ m, ∀ s ∈ (S m n).senderKeyStates, chainKeyOf s = (GTerm.chain (iterationOf s)).value K [] (fun _ => []) id
  seeds : ∀ m, ∀ s ∈ (S m n).senderKeyStates, ∀ k ∈ s.senderMessageKeys,
    k.seed = some ((GTerm.messageSeed (k.iteration.getD 0)).value K [] (fun _ => []) id)
  signing : ∀ m, ∀ s ∈ (S m n).senderKeyStates,
    (s.senderSigningKey.getD {}).priv.getD [] ≠ [] → C.genPub ((s.senderSigningKey.getD {}).priv.getD []) = pub
  announced : ∀ k d, AnnouncedAt n log k d → d.iteration = k ∧ d.signatureKey = pub ∧
    d.chainKey = (GTerm.chain k).value K [] (fun _ => []) id
  sent : ∀ (i : Nat) x, (sentUnder n log)[i]? = some x → ∃ m, SenderKeyMessage.parse x.bytes = .ok m ∧ m.iteration = i ∧
    m.verifySignature (pub) = .ok () ∧
    AES.decrypt ((((GTerm.keys i).value K [] (fun _ => []) id).take 48).drop 16)
      (((GTerm.keys i).value K [] (fun _ => []) id).take 16) m.ciphertext = .ok x.plaintext

/-- Going by what a member has done, its stored record for a name opens message number `i`, which has the bytes `b`.  For a
member: the first announcement it took up was made before the message was sent, and the member has not read it; or one of the
announcements it took up after that was made before the message was sent.  For the owner: the message had not been sent; or
one of its own announcements that it took up was made before. -/
def Exposes [DecidableEq M] (owner : SenderKeyName → M) (n : SenderKeyName) (log : RoomLog M) (m : M) (i : Nat) (b : Bytes) : Prop :=
  if m = owner n then (sentUnder n log).length ≤ i ∨ ∃ d ∈ heardBy m n log, d.iteration ≤ i
  else ∃ d rest, heardBy m n log = d :: rest ∧
    ((d.iteration ≤ i ∧ ∀ p ∈ readBy m n log, ¬ SameBody p.1 b) ∨ ∃ d' ∈ rest, d'.iteration ≤ i)

end
end Axolotl.Spec
