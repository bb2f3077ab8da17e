import Verif.Spec.Trace
import Verif.Spec.Content

/-!
# What someone sees who sees which primitives are used

The order and number of the uses of the primitives, without their arguments.
-/

namespace Axolotl.Spec
variable [C : Crypto]

/-- Which primitives a call of the session API uses, in order. -/
def callKinds (w : World) (c : Call) : List Kind := (callTrace w c).map kind

/-- Which primitives a call of the group API uses, in order. -/
def groupCallKinds (g : GroupStore) (c : GroupCall) : List Kind := (groupCallTrace g c).map kind

/-- The call with which the application passes on received bytes, see `receive`; none if they are no message. -/
def receiveCall (a : Address) (type : Nat) (bytes : Bytes) (seed : Bytes) (seeds : Nat → Bytes) : Option Call :=
  if type = 3 then
    match PreKeyWhisperMessage.parse bytes with
    | .ok m => some (.decryptPkmsg a m seed seeds)
    | .error _ => none
  else
    match WhisperMessage.parse bytes with
    | .ok m => some (.decryptMsg a m seed seeds)
    | .error _ => none

/-- Which primitives are used in receiving these bytes, in order. -/
def receiveKinds (w : World) (a : Address) (type : Nat) (bytes : Bytes) (seed : Bytes) (seeds : Nat → Bytes) : List Kind :=
  match receiveCall a type bytes seed seeds with
  | some c => callKinds w c
  | none => []

end Axolotl.Spec
