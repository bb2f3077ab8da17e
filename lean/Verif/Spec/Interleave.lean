import Verif.Model.Steps
import Verif.Spec.History
import Verif.Spec.Group

/-!
# Calls that overlap

Threads run programs on the same stores; the scheduler may switch between any two store accesses.
-/

namespace Axolotl

/-- A program that runs alone: the changes it makes, in order, and its result. -/
def Prog.alone {M : Machine} {α : Type} : M.State → Prog M α → List M.Change × Res α
  | _, .done r => ([], r)
  | s, .ask q k => (k (M.answer s q)).alone s
  | s, .change x k => (x :: (k.alone (M.apply s x)).1, (k.alone (M.apply s x)).2)

/-- Changes made one after the other. -/
def Machine.applyAll (M : Machine) (s : M.State) (xs : List M.Change) : M.State := xs.foldl M.apply s

/-- What can happen when several programs run on one store: any of them makes the next access, again and again. -/
inductive Interleaved {M : Machine} {α : Type} : M.State → List (Prog M α) → M.State → List (Prog M α) → Prop
  | stop {s : M.State} {ps : List (Prog M α)} : Interleaved s ps s ps
  | ask {s s' : M.State} {a b ps' : List (Prog M α)} {q : M.Query} {k : M.Answer q → Prog M α} :
      Interleaved s (a ++ k (M.answer s q) :: b) s' ps' → Interleaved s (a ++ .ask q k :: b) s' ps'
  | change {s s' : M.State} {a b ps' : List (Prog M α)} {x : M.Change} {k : Prog M α} :
      Interleaved (M.apply s x) (a ++ k :: b) s' ps' → Interleaved s (a ++ .change x k :: b) s' ps'

/-- All threads have finished, with these results. -/
def Finished {M : Machine} {α : Type} (s : M.State) (ps : List (Prog M α)) (s' : M.State) (rs : List (Res α)) : Prop :=
  Interleaved s ps s' (rs.map .done)

section
variable [Crypto]

/-- The program of a call. -/
def Call.prog : Call → Prog Stores Reply
  | .encrypt a p => Steps.encrypt a p >>= fun c => return .ciphertext c
  | .decryptMsg a m s ss => Steps.decryptMsg a m s ss >>= fun b => return .plaintext b
  | .decryptPkmsg a m s ss => Steps.decryptPkmsg a m s ss >>= fun b => return .plaintext b
  | .processBundle a b s1 s2 => Steps.processPreKeyBundle a b s1 s2 >>= fun _ => return .done
  | .processKeyExchange a m r => Steps.processKeyExchangeMessage a m r >>= fun m => return .keyExchange m
  | .initKeyExchange a n s1 s2 s3 => Steps.processInitKeyExchangeMessage a n s1 s2 s3 >>= fun m => return .keyExchange (some m)

/-- A thread that makes these calls one after the other and remembers what each returned or raised. -/
def Call.thread : List Call → Prog Stores (List (Res Reply))
  | [] => return []
  | c :: cs => c.prog.outcome >>= fun r => Call.thread cs >>= fun rs => return r :: rs

/-- The program of a group call. -/
def GroupCall.prog : GroupCall → Prog SenderKeys GroupReply
  | .encrypt n pt rand => GroupSteps.encrypt n pt rand >>= fun b => return .bytes b
  | .decrypt n b => GroupSteps.decrypt n b >>= fun b => return .bytes b
  | .process n m => GroupSteps.process n m >>= fun _ => return .done
  | .create n rnd => GroupSteps.create n rnd >>= fun m => return .distribution m

/-- A thread of group calls. -/
def GroupCall.thread : List GroupCall → Prog SenderKeys (List (Res GroupReply))
  | [] => return []
  | c :: cs => c.prog.outcome >>= fun r => GroupCall.thread cs >>= fun rs => return r :: rs

namespace Spec

omit [Crypto] in
/-- The calls that look at or save the identity of the peer. -/
def usesIdentity : Call → Prop
  | .decryptPkmsg .. | .processBundle .. | .processKeyExchange .. => True
  | _ => False

omit [Crypto] in
/-- The one-time prekey a call names. -/
def preKeyNamed : Call → Option Nat
  | .decryptPkmsg _ m _ _ => m.preKeyId
  | _ => none

omit [Crypto] in
/-- Two calls that have no stored value in common that one of them changes: different addresses, different names if both deal
with identities, and different one-time prekeys if both name one. -/
structure CallsApart (c d : Call) : Prop where
  addr : c.addr ≠ d.addr
  name : usesIdentity c → usesIdentity d → c.addr.1 ≠ d.addr.1
  preKey : ∀ i, preKeyNamed c = some i → preKeyNamed d ≠ some i

omit [Crypto] in
/-- The trust policy asks only for the identity saved under the name in question. -/
def LocalPolicy (w : World) : Prop :=
  ∀ s s' n k, s n = s' n → w.policy s n k = w.policy s' n k

end Spec
end
end Axolotl
