import Verif.Spec.Interleave

/-!
# Calls under locks

Calls begin and end at any time and their store accesses interleave, but an application that locks what a call works on begins a call
only when no other call in progress works on the same.
-/

namespace Axolotl.Spec

/-- What can happen with such locks. The stores were `s0` at the start and are `s` now; `running` are the calls in progress, each with what
it still has to do; `finished` are the calls that have returned, in the order in which they did, with what they gave. A call `c` begins
only when it is apart from all calls in progress. -/
inductive Locked {M : Machine} {κ α : Type} (prog : κ → Prog M α) (apart : κ → κ → Prop) (s0 : M.State) :
    M.State → List (κ × Prog M α) → List (κ × Res α) → Prop
  | start : Locked prog apart s0 s0 [] []
  | enter {s : M.State} {running : List (κ × Prog M α)} {finished : List (κ × Res α)} (c : κ) :
      Locked prog apart s0 s running finished → (∀ d ∈ running, apart c d.1) →
      Locked prog apart s0 s ((c, prog c) :: running) finished
  | ask {s : M.State} {a b : List (κ × Prog M α)} {finished : List (κ × Res α)} {c : κ} {q : M.Query} {k : M.Answer q → Prog M α} :
      Locked prog apart s0 s (a ++ (c, .ask q k) :: b) finished → Locked prog apart s0 s (a ++ (c, k (M.answer s q)) :: b) finished
  | change {s : M.State} {a b : List (κ × Prog M α)} {finished : List (κ × Res α)} {c : κ} {x : M.Change} {k : Prog M α} :
      Locked prog apart s0 s (a ++ (c, .change x k) :: b) finished → Locked prog apart s0 (M.apply s x) (a ++ (c, k) :: b) finished
  | leave {s : M.State} {a b : List (κ × Prog M α)} {finished : List (κ × Res α)} {c : κ} {r : Res α} :
      Locked prog apart s0 s (a ++ (c, .done r) :: b) finished → Locked prog apart s0 s (a ++ b) (finished ++ [(c, r)])

variable [Crypto]

/-- The header of the message that a call returned: ratchet key and counter. -/
def headerOf : Res Reply → Option (ECPub × Nat)
  | .ok (.ciphertext c) => some (c.inner.senderRatchetKey, c.inner.counter)
  | _ => none

/-- The headers of the messages that calls returned. -/
def headersOf (fin : List (Call × Res Reply)) : List (ECPub × Nat) := fin.filterMap fun e => headerOf e.2

/-! ## Any number of `encrypt` calls for one peer, without locks -/

/-- One store access of an `encrypt` call: the load at sessioncipher.py:35 and the store at line 59. -/
inductive StoreAccess (ι : Type) where
  | load (t : ι)
  | store (t : ι)
  deriving DecidableEq, Repr

def StoreAccess.thread {ι : Type} : StoreAccess ι → ι
  | .load t => t
  | .store t => t

/-- The accesses happen in the given order; `seen` is what the calls have loaded. What the calls return, in the order in which they finish. -/
def overlapping {ι : Type} [DecidableEq ι] (a : Address) (text : ι → Bytes) :
    World → (ι → World) → List (StoreAccess ι) → List (ι × Res Ciphertext)
  | _, _, [] => []
  | w, seen, .load t :: l => overlapping a text w (upd seen t w) l
  | w, seen, .store t :: l =>
    (t, (SessionCipher.encrypt (seen t) a (text t)).result) ::
      overlapping a text ((SessionCipher.encrypt (seen t) a (text t)).final w) seen l

/-- Each call loads once and then stores once. -/
def Accesses {ι : Type} [DecidableEq ι] (l : List (StoreAccess ι)) : Prop :=
  ∀ t, l.filter (fun x => x.thread = t) = [] ∨ l.filter (fun x => x.thread = t) = [.load t, .store t]

/-- No two calls overlap. -/
def OneByOne {ι : Type} (l : List (StoreAccess ι)) : Prop := ∃ ts : List ι, l = ts.flatMap fun t => [.load t, .store t]

end Axolotl.Spec
