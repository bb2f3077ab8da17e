/-!
# Basic vocabulary of the model

Byte strings, Python exceptions as values, and Python's slicing rules.
Everything in `Verif/Model` models code in `/repo/axolotl`; paths in comments are
relative to `/repo`.
-/

namespace Axolotl

/-- `bytes` / `bytearray`.  The two Python types are identified: the code converts
between them freely and never relies on mutability of a shared `bytearray`
(simplification). -/
abbrev Bytes := List UInt8

/-- The exceptions the modelled code can raise, one constructor per Python class.
Exception *messages* are not modelled (simplification).

* `invalidMessage`    axolotl/invalidmessageexception.py:4-8
* `duplicateMessage`  axolotl/duplicatemessagexception.py:4-5
* `invalidKey`        axolotl/invalidkeyexception.py:4-5
* `invalidKeyId`      axolotl/invalidkeyidexception.py:4-5
* `invalidVersion`    axolotl/invalidversionexception.py:4-5
* `legacyMessage`     axolotl/legacymessageexception.py:4-5
* `noSession`         axolotl/nosessionexception.py:4-5
* `staleKeyExchange`  axolotl/statekeyexchangeexception.py:4-5
* `untrustedIdentity` axolotl/untrustedidentityexception.py:3-12
* the rest are Python built-ins, `struct.error`, and protobuf's `DecodeError`.

All of them derive directly from `Exception` (none is a subclass of another), so a
Python `except X` clause catches exactly the constructor for `X`. -/
inductive Err where
  | invalidMessage | duplicateMessage | invalidKey | invalidKeyId | invalidVersion
  | legacyMessage | noSession | staleKeyExchange | untrustedIdentity
  | valueError | indexError | typeError | assertionError | structError | decodeError
  deriving DecidableEq, Repr

/-- The result of a Python call: a value or the exception raised. -/
abbrev Res (α : Type) := Except Err α

instance {ε α} [DecidableEq ε] [DecidableEq α] : DecidableEq (Except ε α)
  | .ok a, .ok b => if h : a = b then isTrue (h ▸ rfl) else isFalse (fun h' => h (by injection h'))
  | .error a, .error b => if h : a = b then isTrue (h ▸ rfl) else isFalse (fun h' => h (by injection h'))
  | .ok _, .error _ => isFalse (fun h => by cases h)
  | .error _, .ok _ => isFalse (fun h => by cases h)

/-- Python: a slice bound `i` applied to a sequence of length `len`, clamped into `[0, len]`
(language semantics used by axolotl/util/byteutil.py:26-37). -/
def pyIdx (len : Nat) (i : Int) : Nat :=
  if i < 0 then (i + (len : Int)).toNat else min i.toNat len

/-- Python: `inp[a:b]` (language semantics used by axolotl/util/byteutil.py:26-37). -/
def pySlice {α : Type} (inp : List α) (a b : Int) : List α :=
  (inp.take (pyIdx inp.length b)).drop (pyIdx inp.length a)

/-- Assigning a Python int to a protobuf `uint32` field: out of range raises `ValueError`
(google.protobuf type checker; fields declared in axolotl/protobuf/*.proto). -/
def chkU32 (n : Int) : Res Nat :=
  if 0 ≤ n ∧ n < 2 ^ 32 then .ok n.toNat else .error .valueError

/-- Assigning a Python int to a protobuf `int32` field: out of range raises `ValueError`. -/
def chkI32 (n : Int) : Res Int :=
  if -(2 ^ 31) ≤ n ∧ n < 2 ^ 31 then .ok n else .error .valueError

end Axolotl
