import Verif.Spec.Conversation

/-! # Sending messages in a row and delivering them in any order -/

namespace Axolotl.Spec
variable [C : Crypto]

/-- Encrypt these plaintexts one after the other; the ciphertexts and the stores afterwards, if all succeed. -/
def encryptAll (w : World) (a : Address) : List Bytes → Option (List Ciphertext × World)
  | [] => some ([], w)
  | pt :: pts =>
    match (SessionCipher.encrypt w a pt).result with
    | .ok c =>
      match encryptAll ((SessionCipher.encrypt w a pt).final w) a pts with
      | some (cs, w') => some (c :: cs, w')
      | none => none
    | .error _ => none

/-- A delivery: which message, and the randomness the receiver draws. -/
structure Delivery where
  index : Nat
  seed : Bytes
  seeds : Nat → Bytes

/-- The results of delivering messages one after the other. -/
def deliverAll (a : Address) (msg : Nat → Ciphertext) : World → List Delivery → List (Res Bytes)
  | _, [] => []
  | w, d :: ds =>
    let o := receive w a (msg d.index).getType (msg d.index).serialize d.seed d.seeds
    o.result :: deliverAll a msg (o.final w) ds

/-- What the results should be: the plaintext the first time, a duplicate afterwards. -/
def verdicts (plaintext : Nat → Bytes) : List Nat → List Nat → List (Res Bytes)
  | _, [] => []
  | done, i :: is =>
    if i ∈ done then .error .duplicateMessage :: verdicts plaintext done is
    else .ok (plaintext i) :: verdicts plaintext (done ++ [i]) is

/-- No message is more than 2000 ahead of the counter expected when it first arrives. -/
def NoJump (counter : Nat → Nat) : Nat → List Nat → List Nat → Prop
  | _, _, [] => True
  | next, done, i :: is =>
    (i ∈ done ∧ NoJump counter next done is) ∨
    (i ∉ done ∧ counter i ≤ next + 2000 ∧ NoJump counter (max next (counter i + 1)) (done ++ [i]) is)

end Axolotl.Spec
