import Verif.Model.Work

/-!
# Counting the uses of the primitives

`Logged` is the monad that writes down what is done; `reporting` are the primitives, each use written down.  `Tally` says how often each
primitive was used: `counting` counts each use as one.  `tracing` notes each use with its arguments, in order.  A failed computation keeps
what it did before it failed.
-/

namespace Axolotl

/-- How often each primitive was used. -/
structure Tally where
  hmac : Nat := 0
  genPriv : Nat := 0
  genPub : Nat := 0
  dh : Nat := 0
  verifySig : Nat := 0
  calcSig : Nat := 0
  aesEnc : Nat := 0
  aesDec : Nat := 0
deriving DecidableEq, Repr

namespace Tally

instance : Add Tally := ⟨fun a b =>
  ⟨a.hmac + b.hmac, a.genPriv + b.genPriv, a.genPub + b.genPub, a.dh + b.dh, a.verifySig + b.verifySig, a.calcSig + b.calcSig,
   a.aesEnc + b.aesEnc, a.aesDec + b.aesDec⟩⟩

/-- Each primitive is used at most as often. -/
instance : LE Tally := ⟨fun a b =>
  a.hmac ≤ b.hmac ∧ a.genPriv ≤ b.genPriv ∧ a.genPub ≤ b.genPub ∧ a.dh ≤ b.dh ∧ a.verifySig ≤ b.verifySig ∧ a.calcSig ≤ b.calcSig ∧
  a.aesEnc ≤ b.aesEnc ∧ a.aesDec ≤ b.aesDec⟩

/-- The same work `n` times. -/
def times (n : Nat) (a : Tally) : Tally :=
  ⟨n * a.hmac, n * a.genPriv, n * a.genPub, n * a.dh, n * a.verifySig, n * a.calcSig, n * a.aesEnc, n * a.aesDec⟩

/-- No primitive was used. -/
def none : Tally := {}

end Tally

/-- One use of a primitive, with its arguments. -/
inductive Op where
  | hmac (key data : Bytes)
  | genPriv (random : Bytes)
  | genPub (priv : Bytes)
  | dh (priv pub : Bytes)
  | verifySig (pub data sig : Bytes)
  | calcSig (random priv data : Bytes)
  | aesEnc (key block : Bytes)
  | aesDec (key block : Bytes)
deriving DecidableEq, Repr

/-- Each use counts as one. -/
def Op.tally : Op → Tally
  | .hmac .. => { hmac := 1 }
  | .genPriv .. => { genPriv := 1 }
  | .genPub .. => { genPub := 1 }
  | .dh .. => { dh := 1 }
  | .verifySig .. => { verifySig := 1 }
  | .calcSig .. => { calcSig := 1 }
  | .aesEnc .. => { aesEnc := 1 }
  | .aesDec .. => { aesDec := 1 }

/-- What can be written down while a computation goes on. -/
class Log (L : Type) where
  empty : L
  join : L → L → L

instance : Log Tally := ⟨.none, (· + ·)⟩

instance : Log (List Op) := ⟨[], (· ++ ·)⟩

/-- A result and what was written down on the way to it. -/
structure Logged (L α : Type) where
  val : Res α
  cost : L

/-- The result. -/
def Logged.value {L α : Type} (x : Logged L α) : Res α := x.val

/-- The work done, also if the result is a failure. -/
def Logged.work {L α : Type} (x : Logged L α) : L := x.cost

/-- One computation after the other; the second does no work if the first fails. -/
def Logged.andThen {L : Type} [Log L] {α β : Type} (x : Logged L α) (f : α → Logged L β) : Logged L β :=
  match x.value with
  | .ok a => ⟨(f a).value, Log.join x.work (f a).work⟩
  | .error e => ⟨.error e, x.work⟩

instance {L : Type} [Log L] : Fallible (Logged L) where
  pure a := ⟨.ok a, Log.empty⟩
  bind := Logged.andThen
  fail e := ⟨.error e, Log.empty⟩
  attempt x := ⟨.ok x.value, x.work⟩

/-- A result and the work done for it. -/
abbrev Costly := Logged Tally

/-- A result and what was done for it, in this order. -/
abbrev Traced := Logged (List Op)

section
variable [C : Crypto]

/-- The primitives, each use written down. -/
def reporting {L : Type} (f : Op → L) : Prims (Logged L) where
  hmac k d := ⟨.ok (C.hmac k d), f (.hmac k d)⟩
  genPriv r := ⟨.ok (C.genPriv r), f (.genPriv r)⟩
  genPub k := ⟨.ok (C.genPub k), f (.genPub k)⟩
  dh a b := ⟨.ok (C.dh a b), f (.dh a b)⟩
  verifySig k d s := ⟨.ok (C.verifySig k d s), f (.verifySig k d s)⟩
  calcSig r k d := ⟨.ok (C.calcSig r k d), f (.calcSig r k d)⟩
  aesEnc k b := ⟨.ok (C.aesEnc k b), f (.aesEnc k b)⟩
  aesDec k b := ⟨.ok (C.aesDec k b), f (.aesDec k b)⟩

/-- The primitives, each use counted as one. -/
abbrev counting : Prims Costly := reporting Op.tally

/-- The primitives, each use noted. -/
abbrev tracing : Prims Traced := reporting fun o => [o]

namespace Spec

/-- What one session state may cost before it refuses a message: a ratchet step, 2000 skipped message keys, the message's own keys and its
MAC. -/
def stateWork : Tally := { hmac := 12013, genPriv := 1, genPub := 1, dh := 2 }

/-- The most work a call does.  A record has at most 41 states; block decryption happens at most once per block of the message. -/
def mostWork : Call → Tally
  | .encrypt _ pt => { hmac := 7, aesEnc := pt.length / 16 + 1 }
  | .decryptMsg _ m _ _ => Tally.times 41 stateWork + { aesDec := m.ciphertext.length / 16 }
  | .decryptPkmsg _ m _ _ => Tally.times 41 stateWork + { hmac := 3, dh := 4, aesDec := m.message.ciphertext.length / 16 }
  | .processBundle .. => { verifySig := 1, genPriv := 2, genPub := 2, hmac := 6, dh := 5 }
  | .processKeyExchange .. => { verifySig := 1, calcSig := 1, genPriv := 3, genPub := 3, hmac := 6, dh := 4 }
  | .initKeyExchange .. => { calcSig := 1, genPriv := 2, genPub := 2 }

/-- The work of one call of the session API. -/
def callWork (w : World) (c : Call) : Tally := (Work.run counting w c).work

/-- The work of one call of the group API. -/
def groupCallWork (g : GroupStore) (c : GroupCall) : Tally := (Work.groupRun counting g c).work

end Spec
end
end Axolotl
