import Verif.Model.Basic

/-! # axolotl/util/byteutil.py, axolotl/util/medium.py -/

namespace Axolotl.ByteUtil

/-- axolotl/util/byteutil.py:26-33 `split(inp, firstLength, secondLength, thirdLength=None)`,
with `thirdLength` given.  Lengths are Python ints and may be negative. -/
def split3 {α : Type} (inp : List α) (first second third : Int) : List α × List α × List α :=
  (pySlice inp 0 first,
   pySlice inp first (first + second),
   pySlice inp (first + second) (first + second + third))

/-- axolotl/util/byteutil.py:26-33 with `thirdLength=None`. -/
def split2 {α : Type} (inp : List α) (first second : Int) : List α × List α :=
  (pySlice inp 0 first, pySlice inp first (first + second))

/-- axolotl/util/byteutil.py:35-37 -/
def trim (inp : Bytes) (length : Int) : Bytes := pySlice inp 0 length

/-- axolotl/util/byteutil.py:39-43.  Only `int` arguments (the callers pass ints). -/
def intsToByteHighAndLow (highValue lowValue : Nat) : UInt8 :=
  UInt8.ofNat ((((highValue <<< 4) ||| lowValue) &&& 0xFF) % 256)

/-- axolotl/util/byteutil.py:45-48.  Python 3: indexing `bytes` yields an int. -/
def highBitsToInt (value : UInt8) : Nat := (value.toNat &&& 0xFF) >>> 4

/-- axolotl/util/byteutil.py:50-52 -/
def lowBitsToInt (value : UInt8) : Nat := value.toNat &&& 0xF

/-- axolotl/util/byteutil.py:54-61: writes `value` big-endian at `offset`, returning the mutated
array (the Python function mutates in place and returns 4).  The highest index is written first,
so an array that is too short raises `IndexError` with nothing written.  `>>` on ints is arithmetic and `% 256` is not
negative, in Python as here.  Non-negative `offset`. -/
def intToByteArray (bytes : Bytes) (offset : Nat) (value : Int) : Res Bytes :=
  if offset + 3 < bytes.length then
    .ok ((((bytes.set (offset + 3) (UInt8.ofNat (value % 256).toNat)).set
      (offset + 2) (UInt8.ofNat ((value >>> 8) % 256).toNat)).set
      (offset + 1) (UInt8.ofNat ((value >>> 16) % 256).toNat)).set
      offset (UInt8.ofNat ((value >>> 24) % 256).toNat))
  else .error .indexError

end Axolotl.ByteUtil

namespace Axolotl.Medium
/-- axolotl/util/medium.py:5 -/
def MAX_VALUE : Nat := 0xFFFFFF
end Axolotl.Medium
