import Verif.Model.Basic

/-!
# Protobuf wire format

The classes in `axolotl/protocol/whisperprotos_pb2.py` and `axolotl/state/storageprotos_pb2.py` are
generated; their `SerializeToString`/`ParseFromString` are implemented by the `protobuf` package
from the field tables in `axolotl/protobuf/*.proto`.  This file models the wire format itself
(varints, tags, the five wire types, group skipping); `Protos.lean` has the field tables.
-/

namespace Axolotl.Wire

/-- Base-128 varint, little-endian groups.  `fuel` bounds the number of bytes; 10 bytes are enough
for every 64-bit value. -/
def encVarintF : Nat → Nat → Bytes
  | 0, _ => []
  | f + 1, n => if n < 128 then [UInt8.ofNat n] else UInt8.ofNat (n % 128 + 128) :: encVarintF f (n / 128)

def encVarint (n : Nat) : Bytes := encVarintF 10 n

/-- Reads a varint of at most `fuel` bytes; `none` on truncation or overlong encodings. -/
def decVarintF : Nat → Bytes → Option (Nat × Bytes)
  | 0, _ => none
  | _ + 1, [] => none
  | f + 1, b :: bs =>
    if b.toNat < 128 then some (b.toNat, bs)
    else match decVarintF f bs with
      | none => none
      | some (v, rest) => some (b.toNat - 128 + 128 * v, rest)

/-- A 64-bit varint: ten bytes, high bits dropped. -/
def decVarint (bs : Bytes) : Option (Nat × Bytes) :=
  (decVarintF 10 bs).map fun p => (p.1 % 2 ^ 64, p.2)

/-- Field values by wire type: 0 varint, 1 fixed 64-bit, 2 length-delimited, 3 group (contents are
skipped: no schema here uses groups), 5 fixed 32-bit. -/
inductive WVal where
  | varint (n : Nat)
  | i64 (bs : Bytes)
  | len (bs : Bytes)
  | group
  | i32 (bs : Bytes)
  deriving DecidableEq, Repr

/-- One (field number, value) pair as it appears on the wire. -/
structure Field where
  num : Nat
  val : WVal
  deriving DecidableEq, Repr

/-- Serialisation of one field.  Groups are never written by this library's schemas. -/
def encField (f : Field) : Bytes :=
  match f.val with
  | .varint n => encVarint (f.num * 8) ++ encVarint n
  | .i64 bs => encVarint (f.num * 8 + 1) ++ bs
  | .len bs => encVarint (f.num * 8 + 2) ++ (encVarint bs.length ++ bs)
  | .group => encVarint (f.num * 8 + 3) ++ encVarint (f.num * 8 + 4)
  | .i32 bs => encVarint (f.num * 8 + 5) ++ bs

def encFields (fs : List Field) : Bytes := (fs.map encField).flatten

/-- A tag: field number (non-zero, 32-bit tag) and wire type. -/
def decTag (bs : Bytes) : Option ((Nat × Nat) × Bytes) :=
  match decVarintF 10 bs with
  | none => none
  | some (t, rest) => if t / 8 = 0 ∨ 2 ^ 32 ≤ t then none else some ((t / 8, t % 8), rest)

/-- `n` raw bytes. -/
def decRaw (n : Nat) (bs : Bytes) : Option (Bytes × Bytes) :=
  if n ≤ bs.length then some (bs.take n, bs.drop n) else none

/-- Skips the body of an unknown group up to its matching end-group tag. -/
def skipGroup : Nat → Nat → Bytes → Option Bytes
  | 0, _, _ => none
  | f + 1, num, bs =>
    match decTag bs with
    | none => none
    | some ((n, wt), rest) =>
      if wt = 4 then (if n = num then some rest else none)
      else if wt = 3 then
        match skipGroup f n rest with
        | none => none
        | some rest' => skipGroup f num rest'
      else if wt = 0 then
        match decVarint rest with
        | none => none
        | some (_, rest') => skipGroup f num rest'
      else if wt = 1 then
        match decRaw 8 rest with
        | none => none
        | some (_, rest') => skipGroup f num rest'
      else if wt = 5 then
        match decRaw 4 rest with
        | none => none
        | some (_, rest') => skipGroup f num rest'
      else if wt = 2 then
        match decVarint rest with
        | none => none
        | some (l, rest') =>
          match decRaw l rest' with
          | none => none
          | some (_, rest'') => skipGroup f num rest''
      else none

/-- Parses one field. -/
def decField (bs : Bytes) : Option (Field × Bytes) :=
  match decTag bs with
  | none => none
  | some ((n, wt), rest) =>
    if wt = 0 then (decVarint rest).map fun p => (⟨n, .varint p.1⟩, p.2)
    else if wt = 1 then (decRaw 8 rest).map fun p => (⟨n, .i64 p.1⟩, p.2)
    else if wt = 2 then
      match decVarint rest with
      | none => none
      | some (l, rest') => (decRaw l rest').map fun p => (⟨n, .len p.1⟩, p.2)
    else if wt = 3 then (skipGroup bs.length n rest).map fun r => (⟨n, .group⟩, r)
    else if wt = 5 then (decRaw 4 rest).map fun p => (⟨n, .i32 p.1⟩, p.2)
    else none

/-- All fields of a message, in wire order. -/
def decFieldsF : Nat → Bytes → Option (List Field)
  | _, [] => some []
  | 0, _ :: _ => none
  | f + 1, b :: bs =>
    match decField (b :: bs) with
    | none => none
    | some (fd, rest) => (decFieldsF f rest).map (fd :: ·)

/-- `ParseFromString` down to the list of fields; `none` is protobuf's `DecodeError`.
Every field is at least one byte long, so the length is enough fuel. -/
def decFields (bs : Bytes) : Option (List Field) := decFieldsF bs.length bs

/-! Reading fields out of the parsed list: for a singular field the last occurrence with the right
wire type wins; occurrences with another wire type are unknown fields and are ignored. -/

def allVarint (num : Nat) (fs : List Field) : List Nat :=
  fs.filterMap fun f => match f.val with
    | .varint n => if f.num = num then some n else none
    | _ => none

def allLen (num : Nat) (fs : List Field) : List Bytes :=
  fs.filterMap fun f => match f.val with
    | .len b => if f.num = num then some b else none
    | _ => none

def allI64 (num : Nat) (fs : List Field) : List Bytes :=
  fs.filterMap fun f => match f.val with
    | .i64 b => if f.num = num then some b else none
    | _ => none

/-- `optional uint32`: truncated to 32 bits. -/
def getU32 (num : Nat) (fs : List Field) : Option Nat :=
  (allVarint num fs).getLast?.map (· % 2 ^ 32)

/-- `optional bool` -/
def getBool (num : Nat) (fs : List Field) : Option Bool :=
  (allVarint num fs).getLast?.map (· != 0)

/-- Two's-complement reading of the low 32 bits. -/
def toI32 (n : Nat) : Int :=
  if n % 2 ^ 32 < 2 ^ 31 then ((n % 2 ^ 32 : Nat) : Int) else ((n % 2 ^ 32 : Nat) : Int) - 2 ^ 32

/-- `optional int32` -/
def getI32 (num : Nat) (fs : List Field) : Option Int :=
  (allVarint num fs).getLast?.map toI32

/-- `optional bytes` -/
def getBytes (num : Nat) (fs : List Field) : Option Bytes := (allLen num fs).getLast?

/-- little-endian value -/
def leNat : Bytes → Nat
  | [] => 0
  | b :: bs => b.toNat + 256 * leNat bs

/-- `optional fixed64` -/
def getFixed64 (num : Nat) (fs : List Field) : Option Nat := (allI64 num fs).getLast?.map leNat

/-- `optional Sub sub`: all occurrences are merged; merging messages is concatenating their field
lists.  The outer `Option` is `DecodeError`. -/
def getMsg {α : Type} (num : Nat) (ofFields : List Field → Option α) (fs : List Field) :
    Option (Option α) :=
  match allLen num fs with
  | [] => some none
  | p :: ps =>
    match (p :: ps).mapM decFields with
    | none => none
    | some l => (ofFields l.flatten).map some

/-- `repeated Sub sub` -/
def getRep {α : Type} (num : Nat) (ofFields : List Field → Option α) (fs : List Field) :
    Option (List α) :=
  (allLen num fs).mapM fun p =>
    match decFields p with
    | none => none
    | some l => ofFields l

/-! Writing fields: absent optional fields are not written. -/

def putVarint (num : Nat) (v : Option Nat) : List Field := (v.map fun n => ⟨num, .varint n⟩).toList
def putBool (num : Nat) (v : Option Bool) : List Field :=
  (v.map fun b => ⟨num, .varint (if b then 1 else 0)⟩).toList
/-- `int32` is written as the 64-bit two's complement of the value. -/
def putI32 (num : Nat) (v : Option Int) : List Field :=
  (v.map fun i => ⟨num, .varint (i % 2 ^ 64).toNat⟩).toList
def putBytes (num : Nat) (v : Option Bytes) : List Field := (v.map fun b => ⟨num, .len b⟩).toList

/-- 8 little-endian bytes -/
def leBytes : Nat → Nat → Bytes
  | 0, _ => []
  | k + 1, n => UInt8.ofNat (n % 256) :: leBytes k (n / 256)

def putFixed64 (num : Nat) (v : Option Nat) : List Field :=
  (v.map fun n => ⟨num, .i64 (leBytes 8 n)⟩).toList

def putMsg {α : Type} (num : Nat) (toFields : α → List Field) (v : Option α) : List Field :=
  (v.map fun a => ⟨num, .len (encFields (toFields a))⟩).toList

def putRep {α : Type} (num : Nat) (toFields : α → List Field) (v : List α) : List Field :=
  v.map fun a => ⟨num, .len (encFields (toFields a))⟩

end Axolotl.Wire
