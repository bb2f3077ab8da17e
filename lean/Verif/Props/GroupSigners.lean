import Verif.Props.Signing
import Verif.Proofs.GroupSteps

/-! # C113, histories of groups: the first state of a name decides who signs -/

namespace Axolotl
section
open Spec
variable [C : Crypto]

omit C in
/-- The private signing key of the state that sends, if there is a state. -/
def sendingSigner (r : SenderKeyRecord) : Option ECPriv := (sendingState r).map fun s => (s.senderSigningKey.getD {}).priv.getD []

theorem sendingSigner_next (g : GroupStore) (c : GroupCall) (n : SenderKeyName) :
    sendingSigner (c.next g n) = (sendingSigner (g n)).or (groupSigner n [c]) := by
  cases hs : sendingState (g n) with
  | some s =>
    obtain ⟨s', h1, h2⟩ := (next_record g c n).keeps_sending hs
    unfold sendingSigner
    rw [h1, hs]
    simp only [Option.map_some, Option.some_or]
    rcases h2 with rfl | h2
    · rfl
    · rw [h2.signing]
  | none =>
    have e : sendingSigner (g n) = none := by unfold sendingSigner; rw [hs]; rfl
    rw [e, Option.none_or]
    by_cases hn : c.name = n
    · subst hn
      have hnil : (g c.name).senderKeyStates = [] := List.head?_eq_none_iff.1 hs
      unfold GroupCall.next GOutcome.final
      cases c with
      | encrypt n pt r =>
        rw [run_encrypt, mapG_stored]
        cases hr : (GroupCipher.encrypt g n pt r).result with
        | error _ => rw [GroupCipher.encrypt_error hr]; exact e
        | ok b =>
          obtain ⟨s, _, _, h1, _⟩ := GroupCipher.encrypt_ok hr
          exact absurd (hs.symm.trans h1) (by simp)
      | decrypt n b =>
        rw [run_decrypt, mapG_stored]
        cases hr : (GroupCipher.decrypt g n b).result with
        | error _ => rw [GroupCipher.decrypt_error hr]; exact e
        | ok p =>
          obtain ⟨_, _, _, _, _, _, _, h2, _⟩ := GroupCipher.decrypt_ok hr
          unfold SenderKeyRecord.getStateById at h2
          simp only [GroupCall.name] at hnil
          rw [hnil] at h2
          cases h2
      | process n m =>
        rw [run_process, mapG_stored]
        simp only [GroupCall.name] at hnil e ⊢
        by_cases h : m.id < 2 ^ 32 ∧ m.iteration < 2 ^ 32
        · rw [process_good h.1 h.2]
          simp only [GroupStore.store, sendingSigner, sendingState, hnil, groupSigner, true_and, if_pos h]
          rfl
        · rw [process_bad h]
          simp only [groupSigner, true_and, if_neg h]
          exact e
      | create n r =>
        rw [run_create, mapG_stored]
        simp only [GroupCall.name] at hnil e ⊢
        by_cases h : r.keyId < 2 ^ 32
        · rw [create_new hnil h]
          simp only [GroupStore.store, sendingSigner, sendingState, groupSigner, true_and, if_pos h]
          rfl
        · rw [create_bad hnil h]
          simp only [groupSigner, true_and, if_neg h]
          exact e
    · rw [next_other g c n hn, e]
      cases c with
      | encrypt => rfl
      | decrypt => rfl
      | process n' m => simp only [GroupCall.name] at hn; simp only [groupSigner, hn, false_and, if_false]
      | create n' r => simp only [GroupCall.name] at hn; simp only [groupSigner, hn, false_and, if_false]

theorem groupSigner_cons (n : SenderKeyName) (c : GroupCall) (cs : List GroupCall) :
    groupSigner n (c :: cs) = (groupSigner n [c]).or (groupSigner n cs) := by
  cases c with
  | encrypt => rfl
  | decrypt => rfl
  | process n' m => simp only [groupSigner]; split <;> rfl
  | create n' r => simp only [groupSigner]; split <;> rfl

theorem sendingSigner_after (g : GroupStore) (cs : List GroupCall) (n : SenderKeyName) :
    sendingSigner (GroupCall.after g cs n) = (sendingSigner (g n)).or (groupSigner n cs) := by
  induction cs generalizing g with
  | nil => exact (Option.or_none).symm
  | cons c cs ih =>
    rw [groupSigner_cons, ← Option.or_assoc, ← sendingSigner_next]
    exact ih (c.next g)

/-- **C113**, groups, for histories: whatever was received and sent before, a message is signed with the key that the first call that made a
state for its name made, and with no other: the key made from the random bytes of that `create`, or none if a distribution message came first. -/
theorem C113_group_history (hC : C.Lawful) (cs : List GroupCall) (c : GroupCall) (r : Bytes) (k : ECPriv) (d : Bytes)
    (hl : ∀ n pt rand, c = .encrypt n pt rand → pt.length < 2 ^ 62)
    (h : .calcSig r k d ∈ groupCallTrace (GroupCall.after GroupStore.empty cs) c) : groupSigner c.name cs = some k := by
  have e := sendingSigner_after GroupStore.empty cs c.name
  cases C113_group hC _ c r k d hl h with
  | message hs _ =>
    simp only [GroupCall.name, sendingSigner, sendingState] at e ⊢
    rw [hs] at e
    exact e.symm

/-- **C113**, groups, for histories: further calls do not change with which key a name signs. -/
theorem C113_group_fixed (cs more : List GroupCall) (n : SenderKeyName) (k : ECPriv) (h : groupSigner n cs = some k) :
    groupSigner n (cs ++ more) = some k := by
  induction cs with
  | nil => cases h
  | cons c cs ih =>
    rw [groupSigner_cons] at h
    rw [List.cons_append, groupSigner_cons]
    cases hc : groupSigner n [c] with
    | some k' => rw [hc] at h; exact h
    | none => rw [hc, Option.none_or] at h; exact ih h

end

section
open Example Spec
attribute [local instance] toy

/-- The hypothesis of `C113_group_history`: after `create` a message is signed with the key made then. -/
example : (groupCallTrace (GroupCall.after GroupStore.empty [.create grp grpRand]) (.encrypt grp [1] (key 9))).any
      (fun o => match o with | .calcSig r k _ => r == key 9 && some k == groupSigner grp [.create grp grpRand] | _ => false) = true ∧
    groupSigner grp [.create grp grpRand] = some ((toy).genPriv grpRand.signSeed) := by
  decide +kernel

/-- A distribution message for the name that comes before `create`: from then on there is no key to sign with. -/
example : groupSigner grp [.process grp ⟨[], 1, 0, key 1, key 2⟩, .create grp grpRand] = some [] := by
  decide +kernel

end
end Axolotl
