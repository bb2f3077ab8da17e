import Verif.Proofs.SeedFree
import Verif.Props.Format

/-! # C51: what a receiver reads does not depend on its own randomness -/

namespace Axolotl
open Spec

section
variable [C : Crypto]

omit C in
theorem map_fst_ok {α β : Type} {x y : Res (α × β)} (h : x.map Prod.fst = y.map Prod.fst) {a : α} {b : β}
    (hx : x = .ok (a, b)) : ∃ b', y = .ok (a, b') := by
  subst hx
  cases y with
  | error e => cases h
  | ok p =>
    obtain ⟨a', b'⟩ := p
    have : a = a' := Except.ok.inj h
    exact ⟨b', by rw [this]⟩

omit C in
theorem map_fst_error {α β : Type} {x y : Res (α × β)} (h : x.map Prod.fst = y.map Prod.fst) {e : Err}
    (hx : x = .error e) : y = .error e := by
  subst hx
  cases y with
  | error e' => exact congrArg Except.error (Except.error.inj h).symm
  | ok p => cases h

/-- **C51.** The plaintext or exception of `decryptMsg` is the same for any two choices of its randomness. -/
theorem C51_message (hC : C.Lawful) (w : World) (a : Address) (m : WhisperMessage) (seed seed' : Bytes)
    (seeds seeds' : Nat → Bytes) (hs : seed.length = 32) (hs' : seed'.length = 32)
    (h : ∀ i, (seeds i).length = 32) (h' : ∀ i, (seeds' i).length = 32) :
    (SessionCipher.decryptMsg w a m seed seeds).result = (SessionCipher.decryptMsg w a m seed' seeds').result := by
  have key := dwsr_seed hC (w.loadSession a) m hs hs' h h'
  unfold SessionCipher.decryptMsg
  split
  · rfl
  · cases hd : SessionCipher.decryptWithSessionRecord (w.loadSession a) m seed seeds with
    | error e => rw [map_fst_error key hd]
    | ok p =>
      obtain ⟨pt, r⟩ := p
      obtain ⟨r', hd'⟩ := map_fst_ok key hd
      rw [hd']
      rfl

/-- **C51.** So is that of `decryptPkmsg`. -/
theorem C51_prekey_message (hC : C.Lawful) (w : World) (a : Address) (m : PreKeyWhisperMessage) (seed seed' : Bytes)
    (seeds seeds' : Nat → Bytes) (hs : seed.length = 32) (hs' : seed'.length = 32)
    (h : ∀ i, (seeds i).length = 32) (h' : ∀ i, (seeds' i).length = 32) :
    (SessionCipher.decryptPkmsg w a m seed seeds).result = (SessionCipher.decryptPkmsg w a m seed' seeds').result := by
  unfold SessionCipher.decryptPkmsg
  simp only
  cases (SessionBuilder.process w a (w.loadSession a) m).result with
  | error e => rfl
  | ok p =>
    obtain ⟨r, u⟩ := p
    have key := dwsr_seed hC r m.message hs hs' h h'
    simp only
    cases hd : SessionCipher.decryptWithSessionRecord r m.message seed seeds with
    | error e => rw [map_fst_error key hd]
    | ok p =>
      obtain ⟨pt, r1⟩ := p
      obtain ⟨r2, hd'⟩ := map_fst_ok key hd
      rw [hd']

/-- **C51, groups.** Two encryptions of the same plaintext that differ in the signature randomness leave the same record and
the same bytes up to the signature. -/
theorem C51_group (hC : C.Lawful) (g : GroupStore) (n : SenderKeyName) (pt rand rand' b b' : Bytes)
    (h : (GroupCipher.encrypt g n pt rand).result = .ok b) (h' : (GroupCipher.encrypt g n pt rand').result = .ok b') :
    (GroupCipher.encrypt g n pt rand).final g n = (GroupCipher.encrypt g n pt rand').final g n ∧
    ∃ body sig sig', b = body ++ sig ∧ b' = body ++ sig' ∧ sig.length = 64 ∧ sig'.length = 64 := by
  obtain ⟨s, ct, m, h1, h2, h3, rfl, _, h4⟩ := GroupCipher.encrypt_ok h
  obtain ⟨s', ct', m', h1', h2', h3', rfl, _, h4'⟩ := GroupCipher.encrypt_ok h'
  obtain rfl : s = s' := Option.some.inj (h1.symm.trans h1')
  obtain rfl : ct = ct' := Except.ok.inj (h2.symm.trans h2')
  refine ⟨by unfold GOutcome.final; rw [h4, h4'], ?_⟩
  unfold SenderKeyMessage.create at h3 h3'
  obtain ⟨i, q1, h3⟩ := bind_eq_ok.1 h3
  obtain ⟨j, q2, h3⟩ := bind_eq_ok.1 h3
  obtain ⟨sig, q3, h3⟩ := bind_eq_ok.1 h3
  obtain ⟨i', r1, h3'⟩ := bind_eq_ok.1 h3'
  obtain ⟨j', r2, h3'⟩ := bind_eq_ok.1 h3'
  obtain ⟨sig', r3, h3'⟩ := bind_eq_ok.1 h3'
  obtain rfl : i = i' := Except.ok.inj (q1.symm.trans r1)
  obtain rfl : j = j' := Except.ok.inj (q2.symm.trans r2)
  refine ⟨ByteUtil.intsToByteHighAndLow CiphertextMessage.CURRENT_VERSION CiphertextMessage.CURRENT_VERSION ::
      serializeWith SenderKeyMessageP.toFields { id := some i, iteration := some j, ciphertext := some ct },
    sig, sig', ?_, ?_, (hC.sig_size _ _ _ _ (calculateSignature_ok q3)).2,
    (hC.sig_size _ _ _ _ (calculateSignature_ok r3)).2⟩
  · rw [← Except.ok.inj h3, ← List.cons_append]
  · rw [← Except.ok.inj h3', ← List.cons_append]

end

section
attribute [local instance] toy
open Example

/-- `C51_message`, `C51_prekey_message`: Bob reads Alice's first message and Alice the reply with other randomness. -/
example : (SessionCipher.decryptPkmsg bob0 aliceAddr firstPk (key 7) (fun _ => key 8)).result = .ok [104, 105] ∧
    (SessionCipher.decryptMsg alice2 bobAddr replyMsg (key 9) (fun _ => key 10)).result = .ok [121, 111] ∧
    (key 7).length = 32 := by decide +kernel

/-- `C51_group` -/
example : let g := (GroupCall.create grp grpRand).next GroupStore.empty
    (GroupCipher.encrypt g grp [1] (List.replicate 64 1)).result.toOption.isSome ∧
    (GroupCipher.encrypt g grp [1] (List.replicate 64 2)).result.toOption.isSome := by decide +kernel

end
end Axolotl
