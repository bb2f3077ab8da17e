import Verif.Spec.Format

/-!
# Which bytes are messages

The protobuf grammar as relations between byte strings and lists of fields, and for each of the five messages what every
byte string is read as.  Of `Model/Wire.lean` only the data types `Field` and `WVal` are used.
-/

namespace Axolotl.Spec
open Wire

/-- Little-endian groups of seven bits; all bytes but the last have the high bit set. -/
inductive Varint : Bytes → Nat → Prop
  | last {b : UInt8} : b.toNat < 128 → Varint [b] b.toNat
  | more {b : UInt8} {bs : Bytes} {n : Nat} : 128 ≤ b.toNat → Varint bs n → Varint (b :: bs) (b.toNat - 128 + 128 * n)

/-- A number of 64 bits: ten bytes at most, higher bits are dropped. -/
def Number (bs : Bytes) (n : Nat) : Prop := bs.length ≤ 10 ∧ ∃ k, Varint bs k ∧ n = k % 2 ^ 64

/-- A tag: field number and wire type. -/
def Tag (bs : Bytes) (num wireType : Nat) : Prop :=
  bs.length ≤ 10 ∧ Varint bs (num * 8 + wireType) ∧ wireType < 8 ∧ num ≠ 0 ∧ num * 8 + wireType < 2 ^ 32

/-- A field that is not a group. -/
inductive Plain : Bytes → Field → Prop
  | varint {t v : Bytes} {num n : Nat} : Tag t num 0 → Number v n → Plain (t ++ v) ⟨num, .varint n⟩
  | i64 {t b : Bytes} {num : Nat} : Tag t num 1 → b.length = 8 → Plain (t ++ b) ⟨num, .i64 b⟩
  | len {t l b : Bytes} {num : Nat} : Tag t num 2 → Number l b.length → Plain (t ++ (l ++ b)) ⟨num, .len b⟩
  | i32 {t b : Bytes} {num : Nat} : Tag t num 5 → b.length = 4 → Plain (t ++ b) ⟨num, .i32 b⟩

/-- What follows the start of group `num`: fields and groups, then the end of group `num`. -/
inductive GroupBody : Nat → Bytes → Prop
  | close {num : Nat} {t : Bytes} : Tag t num 4 → GroupBody num t
  | plain {num : Nat} {s rest : Bytes} {f : Field} : Plain s f → GroupBody num rest → GroupBody num (s ++ rest)
  | group {num n : Nat} {t b rest : Bytes} : Tag t n 3 → GroupBody n b → GroupBody num rest →
      GroupBody num (t ++ (b ++ rest))

/-- One field. -/
inductive Item : Bytes → Field → Prop
  | plain {s : Bytes} {f : Field} : Plain s f → Item s f
  | group {num : Nat} {t b : Bytes} : Tag t num 3 → GroupBody num b → Item (t ++ b) ⟨num, .group⟩

/-- A protobuf message: fields one after another. -/
inductive Items : Bytes → List Field → Prop
  | nil : Items [] []
  | cons {s rest : Bytes} {f : Field} {fs : List Field} : Item s f → Items rest fs → Items (s ++ rest) (f :: fs)

/-- The value of an `optional bytes` field: the last one counts. -/
def LastBytes (num : Nat) (fs : List Field) : Option Bytes → Prop
  | none => ∀ b, ⟨num, .len b⟩ ∉ fs
  | some b => ∃ x y, fs = x ++ ⟨num, .len b⟩ :: y ∧ ∀ c, ⟨num, .len c⟩ ∉ y

/-- The value of an `optional uint32` field: the last one counts, its low 32 bits. -/
def LastNumber (num : Nat) (fs : List Field) : Option Nat → Prop
  | none => ∀ n, ⟨num, .varint n⟩ ∉ fs
  | some n => ∃ k x y, fs = x ++ ⟨num, .varint k⟩ :: y ∧ (∀ j, ⟨num, .varint j⟩ ∉ y) ∧ n = k % 2 ^ 32

/-- The bytes after the first and before the last `tail`.  In a string shorter than `tail` Python counts a negative end
from the end of the string. -/
def middle (tail : Nat) (bs : Bytes) : Bytes :=
  if tail ≤ bs.length then (bs.take (bs.length - tail)).drop 1 else (bs.take (2 * bs.length - tail)).drop 1

/-- No content: absent or empty. -/
def Blank (v : Option Bytes) : Prop := v = none ∨ v = some []

/-- Not a key: another type byte than 5. -/
def NotKey (v : Option Bytes) : Prop := ∃ t x, v = some (t :: x) ∧ t ≠ 5

/-- `WhisperMessage(serialized=bs)` -/
inductive ReadsWhisper : Bytes → Except Err WhisperMessage → Prop
  | empty : ReadsWhisper [] (.error .typeError)
  | legacy {v : UInt8} {bs : Bytes} : v.toNat / 16 ≤ 1 → ReadsWhisper (v :: bs) (.error .legacyMessage)
  | future {v : UInt8} {bs : Bytes} : 3 < v.toNat / 16 → ReadsWhisper (v :: bs) (.error .invalidMessage)
  | notFields {v : UInt8} {bs : Bytes} : v.toNat / 16 = 2 ∨ v.toNat / 16 = 3 → (∀ fs, ¬ Items (middle 8 (v :: bs)) fs) →
      ReadsWhisper (v :: bs) (.error .decodeError)
  | incomplete {v : UInt8} {bs : Bytes} {fs : List Field} {key body : Option Bytes} :
      v.toNat / 16 = 2 ∨ v.toNat / 16 = 3 → Items (middle 8 (v :: bs)) fs → LastBytes 1 fs key → LastBytes 4 fs body →
      Blank key ∨ Blank body → ReadsWhisper (v :: bs) (.error .invalidMessage)
  | badKey {v : UInt8} {bs : Bytes} {fs : List Field} {key body : Option Bytes} :
      v.toNat / 16 = 2 ∨ v.toNat / 16 = 3 → Items (middle 8 (v :: bs)) fs → LastBytes 1 fs key → LastBytes 4 fs body →
      ¬ Blank body → NotKey key → ReadsWhisper (v :: bs) (.error .invalidMessage)
  | message {v : UInt8} {bs : Bytes} {fs : List Field} {key body : Option Bytes} {counter previous : Option Nat} {k : ECPub} :
      v.toNat / 16 = 2 ∨ v.toNat / 16 = 3 → Items (middle 8 (v :: bs)) fs → LastBytes 1 fs key → LastNumber 2 fs counter →
      LastNumber 3 fs previous → LastBytes 4 fs body → ¬ Blank body → KeyOf key k →
      ReadsWhisper (v :: bs) (.ok
        { serialized := v :: bs, senderRatchetKey := k, messageVersion := v.toNat / 16, counter := counter.getD 0
          previousCounter := previous.getD 0, ciphertext := body.getD [] })

/-- `PreKeyWhisperMessage(serialized=bs)` -/
inductive ReadsPreKey : Bytes → Except Err PreKeyWhisperMessage → Prop
  | empty : ReadsPreKey [] (.error .typeError)
  | legacy {v : UInt8} {bs : Bytes} : v.toNat / 16 < 3 → ReadsPreKey (v :: bs) (.error .invalidMessage)
  | future {v : UInt8} {bs : Bytes} : 3 < v.toNat / 16 → ReadsPreKey (v :: bs) (.error .invalidVersion)
  | notFields {v : UInt8} {bs : Bytes} : v.toNat / 16 = 3 → (∀ fs, ¬ Items bs fs) →
      ReadsPreKey (v :: bs) (.error .invalidMessage)
  | incomplete {v : UInt8} {bs : Bytes} {fs : List Field} {base identity message : Option Bytes} : v.toNat / 16 = 3 →
      Items bs fs → LastBytes 2 fs base → LastBytes 3 fs identity → LastBytes 4 fs message →
      Blank base ∨ Blank identity ∨ Blank message → ReadsPreKey (v :: bs) (.error .invalidMessage)
  | badKey {v : UInt8} {bs : Bytes} {fs : List Field} {base identity message : Option Bytes} : v.toNat / 16 = 3 →
      Items bs fs → LastBytes 2 fs base → LastBytes 3 fs identity → LastBytes 4 fs message →
      ¬ Blank base → ¬ Blank identity → ¬ Blank message → NotKey base ∨ NotKey identity →
      ReadsPreKey (v :: bs) (.error .invalidMessage)
  /-- the session message inside is refused: that is an invalid message, whatever the reason -/
  | badMessage {v : UInt8} {bs inner : Bytes} {fs : List Field} {base identity : Option Bytes} {k1 k2 : ECPub} {e : Err} :
      v.toNat / 16 = 3 → Items bs fs → LastBytes 2 fs base → LastBytes 3 fs identity → LastBytes 4 fs (some inner) →
      KeyOf base k1 → KeyOf identity k2 → inner ≠ [] → ReadsWhisper inner (.error e) →
      ReadsPreKey (v :: bs) (.error .invalidMessage)
  | message {v : UInt8} {bs inner : Bytes} {fs : List Field} {base identity : Option Bytes}
      {preKeyId registrationId signedPreKeyId : Option Nat} {k1 k2 : ECPub} {m : WhisperMessage} :
      v.toNat / 16 = 3 → Items bs fs → LastNumber 1 fs preKeyId → LastBytes 2 fs base → LastBytes 3 fs identity →
      LastBytes 4 fs (some inner) → LastNumber 5 fs registrationId → LastNumber 6 fs signedPreKeyId →
      KeyOf base k1 → KeyOf identity k2 → ReadsWhisper inner (.ok m) →
      ReadsPreKey (v :: bs) (.ok
        { serialized := v :: bs, version := 3, registrationId := registrationId.getD 0, preKeyId := some (preKeyId.getD 0)
          signedPreKeyId := signedPreKeyId.getD 0, baseKey := k1, identityKey := k2, message := m })

/-- `KeyExchangeMessage(serialized=bs)` -/
inductive ReadsExchange : Bytes → Except Err KeyExchangeMessage → Prop
  | empty : ReadsExchange [] (.error .typeError)
  | legacy {v : UInt8} {bs : Bytes} : v.toNat / 16 < 3 → ReadsExchange (v :: bs) (.error .legacyMessage)
  | future {v : UInt8} {bs : Bytes} : 3 < v.toNat / 16 → ReadsExchange (v :: bs) (.error .invalidVersion)
  | notFields {v : UInt8} {bs : Bytes} : v.toNat / 16 = 3 → (∀ fs, ¬ Items bs fs) →
      ReadsExchange (v :: bs) (.error .decodeError)
  | incomplete {v : UInt8} {bs : Bytes} {fs : List Field} : v.toNat / 16 = 3 → Items bs fs →
      LastNumber 1 fs none ∨ LastBytes 2 fs none ∨ LastBytes 3 fs none ∨ LastBytes 4 fs none ∨ LastBytes 5 fs none →
      ReadsExchange (v :: bs) (.error .invalidMessage)
  /-- the keys are read in the order base, ratchet, identity; an empty one is an `IndexError` -/
  | badKey {v : UInt8} {bs : Bytes} {fs : List Field} {id : Nat} {base ratchet identity signature : Bytes} {e : Err} :
      v.toNat / 16 = 3 → Items bs fs → LastNumber 1 fs (some id) → LastBytes 2 fs (some base) →
      LastBytes 3 fs (some ratchet) → LastBytes 4 fs (some identity) → LastBytes 5 fs (some signature) →
      (∃ x k y, [base, ratchet, identity] = x ++ k :: y ∧ (∀ j ∈ x, ∃ p, KeyOf (some j) p) ∧
        ((k = [] ∧ e = .indexError) ∨ (NotKey (some k) ∧ e = .invalidMessage))) →
      ReadsExchange (v :: bs) (.error e)
  | message {v : UInt8} {bs : Bytes} {fs : List Field} {id : Nat} {base ratchet identity signature : Bytes}
      {k1 k2 k3 : ECPub} :
      v.toNat / 16 = 3 → Items bs fs → LastNumber 1 fs (some id) → LastBytes 2 fs (some base) →
      LastBytes 3 fs (some ratchet) → LastBytes 4 fs (some identity) → LastBytes 5 fs (some signature) →
      KeyOf (some base) k1 → KeyOf (some ratchet) k2 → KeyOf (some identity) k3 →
      ReadsExchange (v :: bs) (.ok
        { serialized := v :: bs, version := 3, supportedVersion := v.toNat % 16, sequence := id / 32, flags := id % 32
          baseKey := k1, baseKeySignature := signature, ratchetKey := k2, identityKey := k3 })

/-- `SenderKeyMessage(serialized=bs)` -/
inductive ReadsGroup : Bytes → Except Err SenderKeyMessage → Prop
  | empty : ReadsGroup [] (.error .assertionError)
  | version {v : UInt8} {bs : Bytes} : v.toNat / 16 ≠ 3 → ReadsGroup (v :: bs) (.error .invalidMessage)
  | notFields {v : UInt8} {bs : Bytes} : v.toNat / 16 = 3 → (∀ fs, ¬ Items (middle 64 (v :: bs)) fs) →
      ReadsGroup (v :: bs) (.error .invalidMessage)
  | message {v : UInt8} {bs : Bytes} {fs : List Field} {id iteration : Option Nat} {body : Option Bytes} :
      v.toNat / 16 = 3 → Items (middle 64 (v :: bs)) fs → LastNumber 1 fs id → LastNumber 2 fs iteration →
      LastBytes 3 fs body →
      ReadsGroup (v :: bs) (.ok
        { serialized := v :: bs, messageVersion := 3, keyId := id.getD 0, iteration := iteration.getD 0
          ciphertext := body.getD [] })

/-- `SenderKeyDistributionMessage(serialized=bs)` -/
inductive ReadsDistribution : Bytes → Except Err SenderKeyDistributionMessage → Prop
  | empty : ReadsDistribution [] (.error .assertionError)
  | version {v : UInt8} {bs : Bytes} : v.toNat / 16 ≠ 3 → ReadsDistribution (v :: bs) (.error .invalidMessage)
  | notFields {v : UInt8} {bs : Bytes} : v.toNat / 16 = 3 → (∀ fs, ¬ Items bs fs) →
      ReadsDistribution (v :: bs) (.error .invalidMessage)
  | badKey {v : UInt8} {bs : Bytes} {fs : List Field} {key : Option Bytes} : v.toNat / 16 = 3 → Items bs fs →
      LastBytes 4 fs key → Blank key ∨ NotKey key → ReadsDistribution (v :: bs) (.error .invalidMessage)
  | message {v : UInt8} {bs : Bytes} {fs : List Field} {id iteration : Option Nat} {chainKey key : Option Bytes} {k : ECPub} :
      v.toNat / 16 = 3 → Items bs fs → LastNumber 1 fs id → LastNumber 2 fs iteration → LastBytes 3 fs chainKey →
      LastBytes 4 fs key → KeyOf key k →
      ReadsDistribution (v :: bs) (.ok
        { serialized := v :: bs, id := id.getD 0, iteration := iteration.getD 0, chainKey := chainKey.getD []
          signatureKey := k })

end Axolotl.Spec
