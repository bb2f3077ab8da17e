import Verif.Proofs.Content
import Verif.Proofs.Secrecy
import Verif.Props.Group

/-! # C94: what is said leaves no trace but in the encrypted body -/

namespace Axolotl
section
variable [C : Crypto]
open SessionState
open Spec (Net Conv Step Steps Start header SameHeader SameOutside Retold sendingState groupMessage)

/-- **C94**, one call, on any stores.  Whether `encrypt` succeeds, what it raises, what it stores, and everything about the message
but the encrypted body and the MAC, does not depend on the plaintext; its length depends on the number of blocks only. -/
theorem C94_encrypt (hC : C.Lawful) (w : World) (a : Address) (pt pt' : Bytes) :
    (SessionCipher.encrypt w a pt').writes = (SessionCipher.encrypt w a pt).writes ∧
    ((∃ e, (SessionCipher.encrypt w a pt).result = .error e ∧ (SessionCipher.encrypt w a pt').result = .error e) ∨
      ∃ c c', (SessionCipher.encrypt w a pt).result = .ok c ∧ (SessionCipher.encrypt w a pt').result = .ok c' ∧ SameOutside c c' ∧
        (pt'.length / 16 = pt.length / 16 → c'.serialize.length = c.serialize.length)) := by
  obtain ⟨h1, h2⟩ := encrypt_like hC w a pt pt'
  refine ⟨h1, ?_⟩
  generalize (SessionCipher.encrypt w a pt).result = x at h2
  generalize (SessionCipher.encrypt w a pt').result = y at h2
  cases h2 with
  | error e => exact Or.inl ⟨e, rfl, rfl⟩
  | ok h => exact Or.inr ⟨_, _, rfl, rfl, h⟩

/-- Two runs from one start are described by one invariant. -/
theorem start_both (hC : C.Lawful) {cv : Conv} {n0 : Net} (h : Start cv n0) :
    ∃ (ids : Bool → ECPub) (hd : PkHeader) (g0 : Ghost .v3), ∀ n, Steps cv n0 n → ConvFrom hd n0.keys g0 ids cv n := by
  obtain ⟨ids, _, _, _, hid, hd, g0, ⟨hg, hw⟩, _⟩ := start_full hC h
  refine ⟨ids, hd, g0, fun n hs => ?_⟩
  exact (steps_from hC (kp := fun b => (n0.world b).identityKeyPair) hid ⟨⟨g0, hg, hw, .refl _ _⟩, fun _ h => h⟩ (fun _ => rfl) hs).1

/-- **C94**, whole conversations.  Whatever the two sides say to each other, the same events with any other plaintexts are possible
too, and lead to the very same stores on both sides; the messages are the same on the outside, and of the same length where the
plaintexts take up the same number of blocks. -/
theorem C94_retold (hC : C.Lawful) {cv : Conv} {n0 n : Net} (h0 : Start cv n0) (h : Steps cv n0 n) (say : Bool → Nat → Bytes)
    (hsay : ∀ b i, (say b i).length < 2 ^ 62) : ∃ m, Steps cv n0 m ∧ Retold say n m := by
  obtain ⟨ids, hd, g0, hall⟩ := start_both hC h0
  have hempty : ∀ b, n0.sent b = [] := by cases h0 <;> intro b <;> rfl
  induction h with
  | refl =>
    refine ⟨n0, .refl, rfl, rfl, rfl, fun _ => rfl, ?_⟩
    intro b i c c' pt pt' hi
    rw [hempty b] at hi
    cases hi
  | @step n n' hs hstep ih =>
    obtain ⟨m, hm, hR⟩ := ih
    cases hstep with
    | @send b pt c h1 h2 h3 =>
      obtain ⟨hw, ⟨e, h4, _⟩ | ⟨c1, c', h4, h5, h6, h7⟩⟩ := C94_encrypt hC (n.world b) (cv.addr b) pt (say b (n.sent b).length)
      · rw [h3] at h4; cases h4
      obtain rfl : c = c1 := Except.ok.inj (h3.symm.trans h4)
      refine ⟨_, hm.step (.send (b := b) (pt := say b (n.sent b).length) (c := c') ?_ (hsay b _) (by rw [hR.world]; exact h5)), ?_, ?_, ?_, ?_, ?_⟩
      · rw [hR.accepted]; exact h1
      · simp only
        rw [hR.world]
        unfold Outcome.final
        rw [hw]
      · exact hR.accepted
      · exact hR.keys
      · intro a
        simp only
        by_cases hab : a = b
        · subst hab
          rw [upd_same, upd_same, List.length_append, List.length_append, hR.count]
          rfl
        · rw [upd_other _ _ hab, upd_other _ _ hab]
          exact hR.count a
      · intro a i x x' p p' hi hi'
        simp only at hi hi'
        by_cases hab : a = b
        · subst hab
          rw [upd_same] at hi hi'
          by_cases hl : i < (n.sent a).length
          · rw [List.getElem?_append_left hl] at hi
            rw [List.getElem?_append_left (by rw [hR.count]; exact hl)] at hi'
            exact hR.sent a i x x' p p' hi hi'
          · have hlen : i = (n.sent a).length := by
              have := (List.getElem?_eq_some_iff.1 hi).1
              rw [List.length_append, List.length_singleton] at this
              omega
            subst hlen
            rw [List.getElem?_concat_length] at hi
            rw [show (n.sent a).length = (m.sent a).length from (hR.count a).symm, List.getElem?_concat_length,
              hR.count a] at hi'
            injection hi with hi
            injection hi' with hi'
            injection hi with e1 e2
            injection hi' with e1' e2'
            subst e1 e2 e1' e2'
            exact ⟨rfl, h6, h7⟩
        · rw [upd_other _ _ hab] at hi hi'
          exact hR.sent a i x x' p p' hi hi'
    | @deliver b i c pt seed seeds h1 h2 h3 h4 h5 =>
      obtain ⟨c', hi', hs'⟩ := retold_at hR h1
      obtain ⟨g1, g2, g3⟩ := deliver_content hC (hall n hs) (hall m hm) hR seeds h1 hi' hs' h2 h3 h4 h5
      refine ⟨_, hm.step (.deliver (seeds := seeds) hi' g1 g2 h4 (by rw [hR.keys]; exact h5)), ?_, ?_, ?_, ?_, ?_⟩
      · simp only
        rw [hR.world]
        unfold Outcome.final
        rw [g3]
      · simp only
        rw [hR.accepted]
      · simp only
        rw [hR.keys]
      · exact hR.count
      · exact hR.sent
    | @other b call h1 h2 h3 =>
      refine ⟨_, hm.step (.other (b := b) (call := call) (by rw [hR.world]; exact h1) (by rw [hR.world]; exact h2) (by rw [hR.world]; exact h3)),
        ?_, hR.accepted, hR.keys, hR.count, hR.sent⟩
      simp only
      rw [hR.world]

/-- **C94**, the next delivery.  Two such moments cannot be told apart by delivering a message either: where one run returns what
was said in it, so does the other, where one refuses a repetition, so does the other, and the stores stay equal. -/
theorem C94_deliver (hC : C.Lawful) {cv : Conv} {n0 n m : Net} (h0 : Start cv n0) (hn : Steps cv n0 n) (hm : Steps cv n0 m)
    {say : Bool → Nat → Bytes} (hR : Retold say n m) {b : Bool} {i : Nat} {c c' : Ciphertext} {pt pt' seed : Bytes} (seeds : Nat → Bytes)
    (hi : (n.sent (!b))[i]? = some (c, pt)) (hi' : (m.sent (!b))[i]? = some (c', pt'))
    (hl : i ∉ n.accepted b → n.inLimits cv b (header c)) (hr : i ∈ n.accepted b → n.remembered cv b (header c))
    (hseed : seed.length = 32) (hfresh : C.genPub (C.genPriv seed) ∉ n.keys) :
    (Spec.receive (m.world b) (cv.addr b) c'.getType c'.serialize seed seeds).final (m.world b) =
      (Spec.receive (n.world b) (cv.addr b) c.getType c.serialize seed seeds).final (n.world b) ∧
    (((Spec.receive (n.world b) (cv.addr b) c.getType c.serialize seed seeds).result = .ok pt ∧
        (Spec.receive (m.world b) (cv.addr b) c'.getType c'.serialize seed seeds).result = .ok (say (!b) i)) ∨
      ((Spec.receive (n.world b) (cv.addr b) c.getType c.serialize seed seeds).result = .error .duplicateMessage ∧
        (Spec.receive (m.world b) (cv.addr b) c'.getType c'.serialize seed seeds).result = .error .duplicateMessage)) := by
  obtain ⟨ids, hd, g0, hall⟩ := start_both hC h0
  obtain ⟨e1, hs, _⟩ := hR.sent (!b) i c c' pt pt' hi hi'
  obtain ⟨g1, g2, g3⟩ := deliver_content hC (hall n hn) (hall m hm) hR seeds hi hi' hs hl hr hseed hfresh
  obtain ⟨_, a1, a2⟩ := conv_deliver_from hC (hall n hn) seeds hi hl hr hseed hfresh
  obtain ⟨_, b1, b2⟩ := conv_deliver_from hC (hall m hm) seeds hi' g1 g2 hseed (by rw [hR.keys]; exact hfresh)
  refine ⟨?_, ?_⟩
  · rw [hR.world]
    unfold Outcome.final
    rw [g3]
  · by_cases ha : i ∈ n.accepted b
    · exact Or.inr ⟨(a2 ha).1, (b2 (by rw [hR.accepted]; exact ha)).1⟩
    · exact Or.inl ⟨a1 ha, by rw [← e1]; exact b1 (by rw [hR.accepted]; exact ha)⟩

/-! ## Groups -/

theorem group_like (hC : C.Lawful) (r : SenderKeyRecord) (pt pt' rand rand' : Bytes) (hr : rand.length = 64) (hr' : rand'.length = 64)
    (hkey : ∀ s, sendingState r = some s → C.Generated ((s.senderSigningKey.getD {}).priv.getD [])) :
    Like (fun x y => x.2 = y.2) (GroupCipher.encryptWithRecord r pt rand) (GroupCipher.encryptWithRecord r pt' rand') := by
  unfold GroupCipher.encryptWithRecord SenderKeyRecord.getFirstState
  cases hst : r.senderKeyStates with
  | nil => exact .error _
  | cons st rest =>
    have hk := hkey st (by unfold sendingState; rw [hst]; rfl)
    simp only [ok_bind]
    refine .bind (aes_like hC _ _ pt pt') fun body body' _ => ?_
    refine .bind (R := fun _ _ => True) ?_ fun m m' _ => ?_
    · unfold SenderKeyMessage.create
      refine .same fun id => ?_
      refine .same fun it => ?_
      refine .bind (R := fun _ _ => True) ?_ fun _ _ _ => .ok trivial
      unfold Curve.calculateSignature
      have hsig : ∀ (rd x : Bytes), rd.length = 64 → ∃ s, C.calcSig rd (SenderKeyState.getSigningKeyPrivate st) x = some s := by
        intro rd x hrd
        obtain ⟨s, h, _⟩ := hC.sig_ok rd _ x hrd hk
        exact ⟨s, h⟩
      obtain ⟨s1, e1⟩ := hsig rand _ hr
      obtain ⟨s2, e2⟩ := hsig rand' _ hr'
      rw [e1, e2]
      exact .ok trivial
    · generalize SenderKeyState.setSenderChainKey st (SenderKeyState.getSenderChainKey st).getNext = z
      cases z with
      | error e => exact .error e
      | ok s' => exact .ok rfl

/-- **C94**, groups, sending.  With a signing key from a key generator, whether `encrypt` succeeds, what it raises, what it stores,
and the key id and iteration in the message do not depend on the plaintext (nor on the randomness of the signature); the length
depends on the number of blocks only. -/
theorem C94_group_encrypt (hC : C.Lawful) (g : GroupStore) (n : SenderKeyName) (pt pt' rand rand' : Bytes) (hpt : pt.length < 2 ^ 62)
    (hpt' : pt'.length < 2 ^ 62) (hr : rand.length = 64) (hr' : rand'.length = 64)
    (hkey : ∀ s, sendingState (g n) = some s → C.Generated ((s.senderSigningKey.getD {}).priv.getD [])) :
    (GroupCipher.encrypt g n pt' rand').stored = (GroupCipher.encrypt g n pt rand).stored ∧
    ((∃ e, (GroupCipher.encrypt g n pt rand).result = .error e ∧ (GroupCipher.encrypt g n pt' rand').result = .error e) ∨
      ∃ b b' m m', (GroupCipher.encrypt g n pt rand).result = .ok b ∧ (GroupCipher.encrypt g n pt' rand').result = .ok b' ∧
        (∃ ct ct' sig sig', b = groupMessage m.keyId m.iteration ct ++ sig ∧ b' = groupMessage m.keyId m.iteration ct' ++ sig' ∧
          sig.length = 64 ∧ sig'.length = 64) ∧
        SenderKeyMessage.parse b = .ok m ∧ SenderKeyMessage.parse b' = .ok m' ∧ m'.keyId = m.keyId ∧
        m'.iteration = m.iteration ∧ (b.length = b'.length ↔ pt.length / 16 = pt'.length / 16)) := by
  have h := group_like hC (g n) pt pt' rand rand' hr hr' hkey
  have key : (GroupCipher.encrypt g n pt' rand').stored = (GroupCipher.encrypt g n pt rand).stored ∧
      ((∃ e, (GroupCipher.encrypt g n pt rand).result = .error e ∧ (GroupCipher.encrypt g n pt' rand').result = .error e) ∨
      ∃ b b', (GroupCipher.encrypt g n pt rand).result = .ok b ∧ (GroupCipher.encrypt g n pt' rand').result = .ok b') := by
    unfold GroupCipher.encrypt
    generalize GroupCipher.encryptWithRecord (g n) pt rand = x at h
    generalize GroupCipher.encryptWithRecord (g n) pt' rand' = y at h
    cases h with
    | ok h => exact ⟨congrArg some h.symm, Or.inr ⟨_, _, rfl, rfl⟩⟩
    | error e =>
      refine ⟨rfl, Or.inl ?_⟩
      unfold GroupCipher.wrapNoSession
      cases e <;> exact ⟨_, rfl, rfl⟩
  refine ⟨key.1, ?_⟩
  rcases key.2 with hb | ⟨b, b', hb, hb'⟩
  · exact Or.inl hb
  · obtain ⟨s, m, q1, q2, q3, q4, _⟩ := encrypt_parses hC hpt hr hb
    obtain ⟨s', m', q1', q2', q3', q4', _⟩ := encrypt_parses hC hpt' hr' hb'
    obtain rfl := Option.some.inj (q1.symm.trans q1')
    refine Or.inr ⟨b, b', m, m', hb, hb', ?_, q2, q2', by rw [q3, q3'], by rw [q4, q4'],
      C66_group_reveals hC g n pt pt' rand rand' b b' hpt hpt' hb hb'⟩
    obtain ⟨t, ct, sig, p1, _, p2, p3⟩ := C53_group_encrypt hC g n pt rand b hb hpt
    obtain ⟨t', ct', sig', p1', _, p2', p3'⟩ := C53_group_encrypt hC g n pt' rand' b' hb' hpt'
    obtain rfl := Option.some.inj (q1.symm.trans p1)
    obtain rfl := Option.some.inj (q1.symm.trans p1')
    rw [q3, q4]
    exact ⟨ct, ct', sig, sig', p3, p3', (hC.sig_size _ _ _ _ p2).2, (hC.sig_size _ _ _ _ p2').2⟩

/-- **C94**, groups, receiving.  Two messages that carry the same key id and iteration and are both accepted leave the same record
behind, whatever they say. -/
theorem C94_group_decrypt (g : GroupStore) (n : SenderKeyName) (b b' pt pt' : Bytes) (m m' : SenderKeyMessage)
    (hm : SenderKeyMessage.parse b = .ok m) (hm' : SenderKeyMessage.parse b' = .ok m') (hid : m'.keyId = m.keyId)
    (hit : m'.iteration = m.iteration) (h : (GroupCipher.decrypt g n b).result = .ok pt)
    (h' : (GroupCipher.decrypt g n b').result = .ok pt') :
    (GroupCipher.decrypt g n b').stored = (GroupCipher.decrypt g n b).stored := by
  obtain ⟨x, s, j, pub, k, s1, h1, h2, _, _, h3, _, h4⟩ := GroupCipher.decrypt_ok h
  obtain ⟨x', s', j', pub', k', s1', h1', h2', _, _, h3', _, h4'⟩ := GroupCipher.decrypt_ok h'
  obtain rfl := Except.ok.inj (hm.symm.trans h1)
  obtain rfl := Except.ok.inj (hm'.symm.trans h1')
  rw [hid, h2] at h2'
  injection h2' with h2'
  injection h2' with e1 e2
  subst e1 e2
  rw [hit, h3] at h3'
  injection h3' with h3'
  injection h3' with e1 e2
  rw [h4, h4', e2]

end

/-! ## Examples -/

section
attribute [local instance] toy
open Example Spec

/-- The conversation of `convRun`, with longer and shorter words. -/
def otherWords (b : Bool) (i : Nat) : Bytes := if b ∧ i ≠ 0 then List.replicate 20 7 else [1]

def retoldCheck (n m : Net) : Bool :=
  ((n.sent true).map (·.1.serialize) != (m.sent true).map (·.1.serialize)) &&
  ((n.sent true)[0]?.map (·.1.serialize.length) == (m.sent true)[0]?.map (·.1.serialize.length)) &&
  ((n.sent true)[1]?.map (·.1.serialize.length) != (m.sent true)[1]?.map (·.1.serialize.length))

/-- The same events with these words. -/
def convRetold : Option Net :=
  ((convSend convCv conv0 true (otherWords true 0)).bind fun n => (convSend convCv n true (otherWords true 1)).bind fun n =>
    (convDeliver convCv n false 1 (key 51)).bind fun n => (convDeliver convCv n false 1 (key 52)).bind fun n =>
    (convSend convCv n false (otherWords false 0)).bind fun n => (convSend convCv n false (otherWords false 1)).bind fun n =>
    convDeliver convCv n true 1 (key 53))

example : (convRun.any fun n => convRetold.any fun m => retoldCheck n m) = true := by decide +kernel

/-- The hypotheses of C94 are met by this conversation; so is what C94_deliver asks of the next delivery (`convCheck`). -/
example : ∃ n m, Start convCv conv0 ∧ Steps convCv conv0 n ∧ Steps convCv conv0 m ∧ Retold otherWords n m ∧ convCheck n = true := by
  have h := convRun_check
  cases hr : convRun with
  | none => rw [hr] at h; cases h
  | some n =>
    rw [hr] at h
    obtain ⟨m, h1, h2⟩ := C94_retold toy_lawful conv_start (convRun_steps hr) otherWords (by
      intro b i
      unfold otherWords
      split <;> simp)
    exact ⟨n, m, conv_start, convRun_steps hr, h1, h2, h⟩

/-- Both kinds of result of `C94_encrypt`. -/
example : (SessionCipher.encrypt alice0 bobAddr [1]).result.toOption = none ∧
    (SessionCipher.encrypt alice1 bobAddr [1]).result.toOption.isSome = true := by decide +kernel

/-- The hypotheses of the group theorems. -/
example : ∃ s, sendingState (GroupCall.after GroupStore.empty [.create grp grpRand] grp) = some s ∧
    toy.Generated ((s.senderSigningKey.getD {}).priv.getD []) ∧ grpSig.length = 64 := by
  have h : ((sendingState (GroupCall.after GroupStore.empty [.create grp grpRand] grp)).any fun s =>
      decide (((s.senderSigningKey.getD {}).priv.getD []).length = 32 ∧
        (s.senderSigningKey.getD {}).priv.getD [] = toy.genPriv (key 92))) = true := by decide +kernel
  cases hs : sendingState (GroupCall.after GroupStore.empty [.create grp grpRand] grp) with
  | none => rw [hs] at h; cases h
  | some s =>
    rw [hs] at h
    have h := of_decide_eq_true h
    exact ⟨s, rfl, ⟨h.1, key 92, h.2⟩, by decide⟩

/-- Two messages with the same id and iteration, both accepted. -/
example : (GroupCipher.decrypt (GroupCall.after GroupStore.empty [.process grp grpDist]) grp (grpMsg 1)).result = .ok [2, 2] ∧
    ∃ b, (GroupCipher.encrypt (GroupCall.after GroupStore.empty (grpCalls.take 4)) grp [8] grpSig).result = .ok b ∧
      (GroupCipher.decrypt (GroupCall.after GroupStore.empty [.process grp grpDist]) grp b).result = .ok [8] := by
  have h : ((GroupCipher.encrypt (GroupCall.after GroupStore.empty (grpCalls.take 4)) grp [8] grpSig).result.toOption.any fun b =>
      decide ((GroupCipher.decrypt (GroupCall.after GroupStore.empty [.process grp grpDist]) grp b).result = .ok [8])) = true := by
    decide +kernel
  refine ⟨by decide +kernel, ?_⟩
  cases hb : (GroupCipher.encrypt (GroupCall.after GroupStore.empty (grpCalls.take 4)) grp [8] grpSig).result with
  | error e => rw [hb] at h; cases h
  | ok b =>
    rw [hb] at h
    exact ⟨b, rfl, of_decide_eq_true h⟩

end
end Axolotl
