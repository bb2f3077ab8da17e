import Verif.Spec.Conversation
import Verif.Spec.Receive

/-!
# What an attacker can compute

Secrecy is stated about terms: private keys, agreements, HMACs, encryptions and plaintexts are symbols, and an attacker can
apply the primitives to what they have (the usual symbolic model).  `Term.value` says which bytes a term stands for.
-/

namespace Axolotl.Spec

/-- The private keys that matter to a conversation: of the identities, the base keys of the setup, the one-time prekey, the
ratchet keys in the order in which they are generated, the signed prekeys in the stores by their ids (the one of the setup is a
ratchet key), and keys of the attacker.  Side `true` is the initiator. -/
inductive KeyName
  | identity (b : Bool)
  | base (b : Bool)
  | oneTime
  | ratchet (j : Nat)
  | signed (b : Bool) (i : Nat)
  | adversary (k : Nat)
  deriving DecidableEq

inductive Term
  | bytes (b : Bytes)
  | pub (x : KeyName)
  | priv (x : KeyName)
  /-- what the private key `x` and the public key of `y` agree on -/
  | agree (x y : KeyName)
  | join (s t : Term)
  | hmac (key message : Term)
  | enc (key iv message : Term)
  /-- the plaintext of message number `i` of side `b` -/
  | text (b : Bool) (i : Nat)

/-- What can be computed from the terms in `K`. -/
inductive Derives (K : Term → Prop) : Term → Prop
  | has {t : Term} : K t → Derives K t
  | bytes (b : Bytes) : Derives K (.bytes b)
  | pub (x : KeyName) : Derives K (.pub x)
  | own (k : Nat) : Derives K (.priv (.adversary k))
  | agree {x y : KeyName} : Derives K (.priv x) → Derives K (.agree x y)
  | agree' {x y : KeyName} : Derives K (.priv y) → Derives K (.agree x y)
  | join {s t : Term} : Derives K s → Derives K t → Derives K (.join s t)
  | fst {s t : Term} : Derives K (.join s t) → Derives K s
  | snd {s t : Term} : Derives K (.join s t) → Derives K t
  | hmac {k m : Term} : Derives K k → Derives K m → Derives K (.hmac k m)
  | enc {k iv m : Term} : Derives K k → Derives K iv → Derives K m → Derives K (.enc k iv m)
  | dec {k iv m : Term} : Derives K (.enc k iv m) → Derives K k → Derives K m

namespace Term

/-- The blocks of HKDF output (RFC 5869): `T(1)` is number 0. -/
def block (info : Bytes) (prk : Term) : Nat → Term
  | 0 => hmac prk (join (bytes info) (bytes [1]))
  | p + 1 => hmac prk (join (block info prk p) (join (bytes info) (bytes [UInt8.ofNat (p + 2)])))

/-- HKDF without salt -/
def noSalt : Term := bytes (List.replicate 32 0)

/-- The secrets of the setup: the prekey `spk` of side `false` and maybe a one-time prekey. -/
def setup (spk : KeyName) (oneTime : Option KeyName) : Term :=
  join (bytes (List.replicate 32 0xFF)) (join (agree (.identity true) spk) (join (agree (.base true) (.identity false))
    (match oneTime with
      | none => agree (.base true) spk
      | some k => join (agree (.base true) spk) (agree (.base true) k))))

/-- the label of the expansion: `"WhisperText"` for the setup, `"WhisperRatchet"` after that -/
def info (j : Nat) : Bytes := if j = 0 then textInfo else ratchetInfo

/-- What the keys of ratchet epoch `j` are expanded from: the setup, or the root key before and an agreement of the last two
ratchet keys. -/
def epoch (s : Term) : Nat → Term
  | 0 => hmac noSalt s
  | j + 1 => hmac (block (info j) (epoch s j) 0) (agree (.ratchet j) (.ratchet (j + 1)))

def root (s : Term) (j : Nat) : Term := block (info j) (epoch s j) 0

/-- chain key number `k` of epoch `j` -/
def chain (s : Term) (j : Nat) : Nat → Term
  | 0 => block (info j) (epoch s j) 1
  | k + 1 => hmac (chain s j k) (bytes [2])

/-- what the keys of message number `k` of epoch `j` are expanded from -/
def material (s : Term) (j k : Nat) : Term := hmac noSalt (hmac (chain s j k) (bytes [1]))

def cipherKey (s : Term) (j k : Nat) : Term := block messageKeysInfo (material s j k) 0
def macKey (s : Term) (j k : Nat) : Term := block messageKeysInfo (material s j k) 1
def iv (s : Term) (j k : Nat) : Term := block messageKeysInfo (material s j k) 2

/-- What is sent for message number `i` of side `b`, which is number `k` of epoch `j`: ratchet key, counters and ciphertext,
and the MAC of this and the identity keys. -/
def body (s : Term) (b : Bool) (i j k : Nat) (counters : Bytes) : Term :=
  join (pub (.ratchet j)) (join (bytes counters) (enc (cipherKey s j k) (iv s j k) (text b i)))
def wire (s : Term) (b : Bool) (i j k : Nat) (counters : Bytes) : Term :=
  join (body s b i j k counters)
    (hmac (macKey s j k) (join (pub (.identity b)) (join (pub (.identity !b)) (body s b i j k counters))))

/-- The bytes a term stands for. -/
def value [C : Crypto] (key : KeyName → Bytes) (pt : Bool → Nat → Bytes) : Term → Bytes
  | bytes b => b
  | pub x => C.genPub (key x)
  | priv x => key x
  | agree x y => (C.dh (key x) (C.genPub (key y))).getD []
  | join s t => s.value key pt ++ t.value key pt
  | hmac k m => C.hmac (k.value key pt) (m.value key pt)
  | enc k v m => match AES.encrypt (k.value key pt) ((v.value key pt).take 16) (m.value key pt) with
    | .ok c => c
    | .error _ => []
  | text b i => pt b i

end Term

/-- What has leaked: private keys, root keys, chain keys, the keys of single messages, and plaintexts. -/
structure Leak where
  keys : KeyName → Prop
  roots : Nat → Prop
  chains : Nat → Nat → Prop
  messages : Nat → Nat → Prop
  texts : Bool → Nat → Prop

/-- The terms that an attacker has who sees all messages and what has leaked; `place b i j k`: message number `i` of side `b`
is number `k` of epoch `j`. -/
inductive Leak.Has (l : Leak) (s : Term) (place : Bool → Nat → Nat → Nat → Prop) : Term → Prop
  | key {x : KeyName} : l.keys x → Leak.Has l s place (.priv x)
  | root {j : Nat} : l.roots j → Leak.Has l s place (.root s j)
  | chain {j k : Nat} : l.chains j k → Leak.Has l s place (.chain s j k)
  | cipherKey {j k : Nat} : l.messages j k → Leak.Has l s place (.cipherKey s j k)
  | macKey {j k : Nat} : l.messages j k → Leak.Has l s place (.macKey s j k)
  | iv {j k : Nat} : l.messages j k → Leak.Has l s place (.iv s j k)
  | text {b : Bool} {i : Nat} : l.texts b i → Leak.Has l s place (.text b i)
  | wire {b : Bool} {i j k : Nat} {counters : Bytes} : place b i j k → Leak.Has l s place (.wire s b i j k counters)

/-! ## What follows from a leak -/

/-- A private key the attacker can use. -/
def Leak.owns (l : Leak) (x : KeyName) : Prop := l.keys x ∨ ∃ k, x = .adversary k

/-- The attacker can compute the secrets of the setup: for every agreement in it one of the two private keys. -/
def Leak.setup (l : Leak) (spk : KeyName) (oneTime : Option KeyName) : Prop :=
  (l.owns (.identity true) ∨ l.owns spk) ∧ (l.owns (.base true) ∨ l.owns (.identity false)) ∧
  (l.owns (.base true) ∨ l.owns spk) ∧ ∀ k, oneTime = some k → l.owns (.base true) ∨ l.owns k

/-- Whether the root key of an epoch can be computed, given whether the setup can. -/
def Leak.root (l : Leak) (setup : Prop) : Nat → Prop
  | 0 => l.roots 0 ∨ setup
  | j + 1 => l.roots (j + 1) ∨ (l.root setup j ∧ (l.owns (.ratchet j) ∨ l.owns (.ratchet (j + 1))))

/-- Whether the first chain key of an epoch can be computed from what was before. -/
def Leak.opens (l : Leak) (setup : Prop) : Nat → Prop
  | 0 => setup
  | j + 1 => l.root setup j ∧ (l.owns (.ratchet j) ∨ l.owns (.ratchet (j + 1)))

/-- Whether the keys of a message can be computed. -/
def Leak.reads (l : Leak) (setup : Prop) (j k : Nat) : Prop :=
  l.messages j k ∨ l.opens setup j ∨ ∃ k' ≤ k, l.chains j k'

/-! ## Session states as leaks -/

section
variable [C : Crypto]

/-- A chain of ratchet key number `j`, one of the first ones up to `top`. -/
def Labelled (key : KeyName → Bytes) (top : Nat) (c : ChainS) (j : Nat) : Prop :=
  j ≤ top ∧ c.senderRatchetKey = some (5 :: C.genPub (key (.ratchet j)))

/-- What the attacker gets who reads the session states of the sides in `S`, going by the public keys and numbers in them,
and who has the private keys in `extra` and the plaintexts in `texts`. -/
def theft (key : KeyName → Bytes) (top : Nat) (cv : Conv) (n : Net) (S : Bool → Prop) (extra : KeyName → Prop)
    (texts : Bool → Nat → Prop) : Leak where
  keys x := extra x ∨ ∃ b r c j, S b ∧ (n.world b).sessions (cv.addr b) = some r ∧ r.sessionState.senderChain = some c ∧
    Labelled key top c j ∧ x = .ratchet j
  roots j := ∃ b r c, S b ∧ (n.world b).sessions (cv.addr b) = some r ∧ r.sessionState.senderChain = some c ∧
    Labelled key top c j
  chains j k := ∃ b r c, S b ∧ (n.world b).sessions (cv.addr b) = some r ∧
    (r.sessionState.senderChain = some c ∨ c ∈ r.sessionState.receiverChains) ∧ Labelled key top c j ∧ position c = k
  messages j k := ∃ b r c, S b ∧ (n.world b).sessions (cv.addr b) = some r ∧ c ∈ r.sessionState.receiverChains ∧
    Labelled key top c j ∧ k ∈ storedCounters c
  texts := texts

/-- The keys in a session state are those that the terms stand for. -/
structure Spells (key : KeyName → Bytes) (s : Term) (top : Nat) (st : SessionS) : Prop where
  send : ∃ j k, j ≤ top ∧ st.rootKey = some ((Term.root s j).value key fun _ _ => []) ∧
    st.senderChain = some
      { senderRatchetKey := some (5 :: C.genPub (key (.ratchet j)))
        senderRatchetKeyPrivate := some (key (.ratchet j))
        chainKey := some { key := some ((Term.chain s j k).value key fun _ _ => []), index := some k } }
  recv : ∀ c ∈ st.receiverChains, ∃ (j k : Nat) (ks : List Nat), j ≤ top ∧ c =
    { senderRatchetKey := some (5 :: C.genPub (key (.ratchet j)))
      chainKey := some { key := some ((Term.chain s j k).value key fun _ _ => []), index := some k }
      messageKeys := ks.map fun m =>
        { index := some m, cipherKey := some ((Term.cipherKey s j m).value key fun _ _ => []),
          macKey := some ((Term.macKey s j m).value key fun _ _ => []),
          iv := some (((Term.iv s j m).value key fun _ _ => []).take 16) } }

/-- Message number `i` of side `b` is number `k` of epoch `j`, going by its header. -/
def Placed (key : KeyName → Bytes) (top : Nat) (n : Net) (b : Bool) (i j k : Nat) : Prop :=
  j ≤ top ∧ ∃ c pt, (n.sent b)[i]? = some (c, pt) ∧ header c = (C.genPub (key (.ratchet j)), k)

/-- `key` says which keys have these names in a conversation with `top + 1` ratchet keys, at the moment `n`. -/
structure Describes (key : KeyName → Bytes) (s : Term) (top : Nat) (cv : Conv) (n : Net) : Prop where
  identity : ∀ b, (n.world b).identityKeyPair = { pub := C.genPub (key (.identity b)), priv := key (.identity b) }
  distinct : ∀ i j, i ≤ top → j ≤ top → C.genPub (key (.ratchet i)) = C.genPub (key (.ratchet j)) → i = j
  known : ∀ j, j ≤ top → C.genPub (key (.ratchet j)) ∈ n.keys
  state : ∀ b, (cv.waits = true → b = false → n.accepted false ≠ []) →
    ∃ r, (n.world b).sessions (cv.addr b) = some r ∧ Spells key s top r.sessionState
  sent : ∀ (b : Bool) (i : Nat) (c : Ciphertext) (pt : Bytes), (n.sent b)[i]? = some (c, pt) →
    ∃ j k, Placed key top n b i j k ∧
      c.inner.verifyMac 3 (C.genPub (key (.identity b))) (C.genPub (key (.identity !b)))
        ((Term.macKey s j k).value key fun _ _ => []) = .ok () ∧
      AES.decrypt ((Term.cipherKey s j k).value key fun _ _ => []) (((Term.iv s j k).value key fun _ _ => []).take 16)
        c.inner.ciphertext = .ok pt

/-- The secrets of the setup: after a bundle, the signed prekey is the first ratchet key and there is a one-time prekey; after
a key exchange, the base key of side `false` takes the part of the signed prekey. -/
def Conv.setup (cv : Conv) : Term := if cv.waits then .setup (.ratchet 0) (some .oneTime) else .setup (.base false) none

/-- The prekey and base key of the setup by bundle. -/
def Begins (key : KeyName → Bytes) (cv : Conv) (n : Net) : Prop :=
  ∀ i, cv.preKeyId = some i →
    HoldsPreKey (n.world false) i { pub := C.genPub (key .oneTime), priv := key .oneTime } ∧
    ∃ r p, (n.world true).sessions (cv.addr true) = some r ∧ r.sessionState.pendingPreKey = some p ∧
      p.preKeyId = some i ∧ p.baseKey = some (5 :: C.genPub (key (.base true)))

end
end Axolotl.Spec
