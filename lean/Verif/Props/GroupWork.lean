import Verif.Props.Work
import Verif.Props.GroupDelivery
import Verif.Props.GroupCalls

/-! # C109: the work of every call of the group API -/

namespace Axolotl
section
variable [C : Crypto]
open Spec Logged Costly

/-- Counting does not change what is computed: the counted call is the call. -/
theorem C109_same (g : GroupStore) (c : GroupCall) : (Work.groupRun counting g c).value = .ok (c.run g) := Work.groupRun_value g c

theorem groupDecrypt_work (g : GroupStore) (n : SenderKeyName) (b : Bytes) :
    groupCallWork g (.decrypt n b) = (Work.decryptWithRecord counting (g n) b).work := by
  unfold groupCallWork
  simp only [Work.groupRun, mapped_work]
  unfold Work.groupDecrypt
  rw [work_ok (value_attempt _), work_attempt]
  refine Eq.trans (congrArg (_ + ·) (?_ : _ = Tally.none)) (Tally.add_none _)
  split <;> rfl

/-- Everything but reading has a fixed price. -/
theorem C109_fixed (g : GroupStore) (n : SenderKeyName) :
    (∀ pt rand, groupCallWork g (.encrypt n pt rand) ≤ { hmac := 5, calcSig := 1, aesEnc := pt.length / 16 + 1 }) ∧
    (∀ m, groupCallWork g (.process n m) = .none) ∧
    (∀ rnd, groupCallWork g (.create n rnd) ≤ { genPriv := 1, genPub := 1 }) := by
  refine ⟨fun pt rand => ?_, fun m => rfl, fun rnd => ?_⟩ <;> unfold groupCallWork <;> simp only [Work.groupRun, mapped_work]
  · unfold Work.groupEncrypt
    rw [work_ok (value_attempt _), work_attempt]
    refine Tally.le_trans (Tally.add_le (c := { hmac := 5, calcSig := 1, aesEnc := pt.length / 16 + 1 }) (d := .none) ?_ ?_) (by tally)
    · unfold Work.encryptWithRecord Work.createSenderKeyMessage
      refine Tally.le_trans (lift_le fun _ _ => bind_le (a := { hmac := 4 }) (by rw [Work.getSenderMessageKey_work]; exact Tally.le_refl _)
        fun _ _ => bind_le (Work.aesEncrypt_le ..) fun _ _ => bind_le (a := { calcSig := 1 }) ?_ fun _ _ =>
        bind_le (a := { hmac := 1 }) (Tally.le_refl _) fun _ _ => lift_le fun _ _ => pure_le _ .none)
        (c := { hmac := 5, calcSig := 1, aesEnc := pt.length / 16 + 1 }) ?_
      · exact Tally.le_trans (lift_le fun _ _ => lift_le fun _ _ => bind_le (Work.sign_le ..) fun _ _ => pure_le _ .none) (by tally)
      · tally
    · split <;> exact pure_le _ _
  · unfold Work.groupCreate
    exact ite_le (fun _ => Tally.le_trans (bind_le (Work.generate_le ..) fun _ _ => pure_le _ .none) (by tally)) fun _ => pure_le _ _

/-- Reading costs at most one signature check, five HMACs for every step of the chain up to the message (three more if its key is stored),
and the decryption of its blocks. -/
theorem C109_bound (g : GroupStore) (n : SenderKeyName) (b : Bytes) (m : SenderKeyMessage) (s : SenderKeyStateS)
    (hm : SenderKeyMessage.parse b = .ok m) (hs : stateFor (g n) m.keyId = some s) :
    groupCallWork g (.decrypt n b) ≤
      { verifySig := 1, hmac := 5 * (m.iteration + 1 - iterationOf s) + 3, aesDec := m.ciphertext.length / 16 } := by
  rw [groupDecrypt_work]
  unfold Work.decryptWithRecord
  obtain ⟨j, hj⟩ := SenderKeyRecord.getStateById_some hs
  refine ite_le (fun _ => fail_le _ _) fun _ => lift_le fun m' h1 => lift_le fun st h2 => lift_le fun pub _ => ?_
  obtain rfl := Except.ok.inj (hm.symm.trans h1)
  obtain rfl := Except.ok.inj (hj.symm.trans h2)
  refine Tally.le_trans (bind_le (a := { verifySig := 1 }) (by rw [Work.verifySenderKeyMessage_work]; exact Tally.le_refl _) fun _ _ =>
    bind_le (Work.getSenderKey_le ..) fun _ _ => bind_le (Work.getPlainText_le ..) fun _ _ => pure_le _ .none) ?_
  simp only [position_eq]
  tally

/-- Nothing is computed for bytes that are no message, or for a sender key not known. -/
theorem C109_free (g : GroupStore) (n : SenderKeyName) (b : Bytes)
    (h : ∀ m, SenderKeyMessage.parse b = .ok m → stateFor (g n) m.keyId = none) : groupCallWork g (.decrypt n b) = .none := by
  rw [groupDecrypt_work]
  unfold Work.decryptWithRecord
  refine Tally.eq_of_le (ite_le (fun _ => fail_le _ _) fun _ => lift_le fun m hm => lift_le fun st hst => ?_) (Tally.none_le _)
  have := (SenderKeyRecord.getStateById_ok hst).1
  rw [h m hm] at this
  cases this

/-- Someone who cannot sign gets no more than one signature check out of a member. -/
theorem C109_forgery (g : GroupStore) (n : SenderKeyName) (body sig : Bytes) (m : SenderKeyMessage) (s : SenderKeyStateS) (pub : ECPub)
    (hsig : sig.length = 64) (hm : SenderKeyMessage.parse (body ++ sig) = .ok m) (hs : stateFor (g n) m.keyId = some s)
    (hpub : KeyOf (s.senderSigningKey.getD {}).pub pub) (hbad : C.verifySig pub body sig ≠ some true) :
    groupCallWork g (.decrypt n (body ++ sig)) = { verifySig := 1 } := by
  rw [groupDecrypt_work]
  unfold Work.decryptWithRecord
  obtain ⟨j, hj⟩ := SenderKeyRecord.getStateById_some hs
  have hk : SenderKeyState.getSigningKeyPublic s = .ok pub := KeyOf_iff.1 hpub
  have hv : ∃ e, m.verifySignature pub = .error e := by
    rw [verify_signed (senderkey_parse_serialized hm) hsig]
    cases h : C.verifySig pub body sig with
    | none => exact ⟨_, rfl⟩
    | some b =>
      cases b with
      | true => exact absurd h hbad
      | false => exact ⟨_, rfl⟩
  obtain ⟨e, hv⟩ := hv
  rw [if_neg (stateFor_ne hs), work_ok ((value_lift _).trans hm), work_lift, work_ok ((value_lift _).trans hj), work_lift]
  simp only
  rw [work_ok ((value_lift _).trans hk), work_lift, work_error ((Work.verifySenderKeyMessage_value ..).trans hv),
    Work.verifySenderKeyMessage_work]
  rfl

/-- A message that is read costs exactly this: the work grows with the distance between the message and the stored chain. -/
theorem C109_exact (g : GroupStore) (n : SenderKeyName) (b pt : Bytes) (m : SenderKeyMessage) (s : SenderKeyStateS)
    (hm : SenderKeyMessage.parse b = .ok m) (hs : stateFor (g n) m.keyId = some s) (hi : iterationOf s ≤ m.iteration)
    (h : (GroupCipher.decrypt g n b).result = .ok pt) :
    groupCallWork g (.decrypt n b) =
      { verifySig := 1, hmac := 5 * (m.iteration + 1 - iterationOf s), aesDec := m.ciphertext.length / 16 } := by
  obtain ⟨m', s', j, pub, k, s2, h1, h2, h3, h4, h5, h6, _⟩ := GroupCipher.decrypt_ok h
  obtain rfl := Except.ok.inj (hm.symm.trans h1)
  have h7 := (SenderKeyRecord.getStateById_ok h2).1
  obtain rfl := Option.some.inj (hs.symm.trans h7)
  rw [groupDecrypt_work]
  unfold Work.decryptWithRecord
  rw [if_neg (stateFor_ne hs), work_ok ((value_lift _).trans hm), work_lift, work_ok ((value_lift _).trans h2), work_lift]
  simp only
  rw [work_ok ((value_lift _).trans h3), work_lift, work_ok ((Work.verifySenderKeyMessage_value ..).trans h4),
    Work.verifySenderKeyMessage_work, work_ok ((Work.getSenderKey_value ..).trans h5),
    Work.getSenderKey_work (by rw [position_eq]; exact hi) h5]
  simp only
  have hp : GroupCipher.getPlainText k.iv k.cipherKey m.ciphertext = .ok pt := by
    unfold GroupCipher.getPlainText SenderKeyMessage.wrapAll
    rw [h6]
  rw [work_ok ((Work.getPlainText_value ..).trans hp), work_pure]
  unfold Work.getPlainText
  rw [work_ok (value_attempt _), work_attempt, work_lift, Work.aesDecrypt_work h6, position_eq]
  tally_eq

/-- So there is no limit like that of sessions: for every number there is a message, of a member, that costs more HMACs.  (The check that
should set the limit compares the wrong way round, axolotl/groups/groupcipher.py:75.) -/
theorem C109_no_limit (hC : C.Lawful) (n : SenderKeyName) (limit : Nat) (hlimit : limit + 2 < 2 ^ 32) :
    ∃ (rnd : GroupSessionBuilder.CreateRand) (b pt : Bytes),
      (GroupCipher.decrypt (GroupCall.after GroupStore.empty [.create n rnd]) n b).result = .ok pt ∧
      5 * limit < (groupCallWork (GroupCall.after GroupStore.empty [.create n rnd]) (.decrypt n b)).hmac := by
  obtain ⟨rnd, b, pt, m, s, h1, h2, h3, h4⟩ := C42_false hC n limit hlimit
  refine ⟨rnd, b, pt, h4, ?_⟩
  rw [C109_exact _ _ _ _ _ _ h1 h2 (by omega) h4]
  show 5 * limit < 5 * _
  omega

end

/-! ## Non-vacuity -/

section
attribute [local instance] toy
open Example Spec

/-- A member that has the sender key, and three messages of the sender. -/
def Example.grpMember : GroupStore := (GroupCall.process grp grpDist).next GroupStore.empty

/-- `C109_exact`, `C109_forgery`, `C109_free`: reading the third message first takes 15 HMACs, reading the first afterwards, with its stored
key, takes three; with a wrong signature one signature check is done, and for bytes that are no message nothing. -/
example : (grpSent[2]?.map fun x => groupCallWork grpMember (.decrypt grp x.bytes)) =
      some { verifySig := 1, hmac := 15, aesDec := 1 } ∧
    (grpSent[2]?.bind fun x => grpSent[0]?.map fun y =>
      groupCallWork ((GroupCall.decrypt grp x.bytes).next grpMember) (.decrypt grp y.bytes)) =
      some { verifySig := 1, hmac := 3, aesDec := 1 } ∧
    (grpSent[2]?.map fun x => groupCallWork grpMember (.decrypt grp (x.bytes.dropLast ++ [7]))) = some { verifySig := 1 } ∧
    groupCallWork grpMember (.decrypt grp [0x33, 1]) = .none ∧
    groupCallWork GroupStore.empty (.create grp grpRand) = { genPriv := 1, genPub := 1 } := by decide +kernel

end
end Axolotl
