import Verif.Model.Helpers

/-! # What the public helpers are for, in terms of digits, numbers and positions -/

namespace Axolotl.Spec

def hexLower : List Char := "0123456789abcdef".toList
def hexUpper : List Char := "0123456789ABCDEF".toList

/-- `c` is the hexadecimal digit for `v`, in either case. -/
def IsDigit (c : Char) (v : Nat) : Prop := hexLower[v]? = some c ∨ hexUpper[v]? = some c

/-- The text `cs` is the bytes `bs` in hexadecimal. -/
inductive HexOf : List Char → Bytes → Prop where
  | nil : HexOf [] []
  | cons {a b : Char} {x y : Nat} {byte : UInt8} {cs : List Char} {bs : Bytes} :
      IsDigit a x → IsDigit b y → byte.toNat = 16 * x + y → HexOf cs bs → HexOf (a :: b :: cs) (byte :: bs)

/-- What `bytes.hex()` prints. -/
def hex (bs : Bytes) : List Char :=
  bs.flatMap fun b => [hexLower.getD (b.toNat / 16) '?', hexLower.getD (b.toNat % 16) '?']

/-- The number written as `bs`, highest byte first. -/
def bigEndian (bs : Bytes) : Nat := bs.foldl (fun n b => 256 * n + b.toNat) 0

/-- The bytes an argument of `combine` stands for. -/
inductive Content : ByteUtil.Piece → Bytes → Prop where
  | bytes (b : Bytes) : Content (.bytes b) b
  | list {l : List Int} {b : Bytes} : l = b.map (fun x => (x.toNat : Int)) → Content (.list l) b
  | emptyStr : Content (.str []) []
  | int (b : UInt8) : Content (.int b.toNat) [b]

/-- `combine` cannot take this argument, and the exception says so. -/
inductive NoContent : ByteUtil.Piece → Err → Prop where
  | list {l : List Int} {n : Int} : n ∈ l → n < 0 ∨ 255 < n → NoContent (.list l) .valueError
  | str {s : List Char} : s ≠ [] → NoContent (.str s) .typeError
  | int {n : Int} : n < 0 ∨ 255 < n → NoContent (.int n) .valueError

/-- Each argument with the bytes it stands for. -/
inductive Contents : List ByteUtil.Piece → List Bytes → Prop where
  | nil : Contents [] []
  | cons {a : ByteUtil.Piece} {b : Bytes} {as : List ByteUtil.Piece} {bs : List Bytes} :
      Content a b → Contents as bs → Contents (a :: as) (b :: bs)

end Axolotl.Spec
