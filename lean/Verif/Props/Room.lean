import Verif.Proofs.Room
import Verif.Props.GroupCalls

/-!
# C72: groups as a whole

Any number of members and groups, any interleaving of their calls, any loss, reordering, repetition and injection of group messages.
-/

namespace Axolotl
section
variable [C : Crypto]
open Spec
variable {M : Type} [DecidableEq M]

/-- The key the running name has. -/
theorem Spec.RoomReach.running (hC : C.Lawful) {owner : SenderKeyName → M} {S : M → GroupStore} {log : RoomLog M}
    (h : RoomReach owner S log) {n : SenderKeyName} {k : Nat} {d : SenderKeyDistributionMessage} (hd : AnnouncedAt n log k d) :
    ∃ d0, RoomRunning owner S log n d0 := by
  rcases h.inv hC n with q | q
  · exact absurd hd (q.announced k d)
  · exact q

/-- **C72.** What a member takes up first for a name is an announcement of its owner. -/
theorem C72_heard (hC : C.Lawful) (owner : SenderKeyName → M) (S : M → GroupStore) (log : RoomLog M) (h : RoomReach owner S log)
    (n : SenderKeyName) (m : M) (hm : m ≠ owner n) (d : SenderKeyDistributionMessage) (rest : List SenderKeyDistributionMessage)
    (hd : heardBy m n log = d :: rest) : ∃ k, AnnouncedAt n log k d ∧ d.iteration = k := by
  rcases h.inv hC n with q | ⟨d0, q⟩
  · rw [q.heard m] at hd; cases hd
  · obtain ⟨⟨k, r1⟩, _⟩ := (q.member m hm).holds d rest hd
    exact ⟨k, r1, (q.announced k d r1).1.it⟩

/-- **C72.** The `i`-th message under a name has iteration `i`, and all have the same key id. -/
theorem C72_number (hC : C.Lawful) (owner : SenderKeyName → M) (S : M → GroupStore) (log : RoomLog M) (h : RoomReach owner S log)
    (n : SenderKeyName) : ∃ id, ∀ (i : Nat) x, (sentUnder n log)[i]? = some x →
      ∃ msg, SenderKeyMessage.parse x.bytes = .ok msg ∧ msg.keyId = id ∧ msg.iteration = i := by
  rcases h.inv hC n with q | ⟨d0, q⟩
  · refine ⟨0, fun i x hx => ?_⟩
    rw [q.sent] at hx
    simp at hx
  · refine ⟨d0.id, fun i x hx => ?_⟩
    obtain ⟨_, msg, r1, r2⟩ := q.sent i x hx
    exact ⟨msg, r1.parses, r1.keyId, r2⟩

/-- **C72.** A member reads every message sent after the announcement it took up first, in any order, however many of the others are
lost and whatever else arrives. -/
theorem C72_read (hC : C.Lawful) (owner : SenderKeyName → M) (S : M → GroupStore) (log : RoomLog M) (h : RoomReach owner S log)
    (n : SenderKeyName) (m : M) (hm : m ≠ owner n) (d : SenderKeyDistributionMessage) (rest : List SenderKeyDistributionMessage)
    (hd : heardBy m n log = d :: rest) (k : Nat) (hk : AnnouncedAt n log k d) (i : Nat) (x : GroupSent)
    (hx : (sentUnder n log)[i]? = some x) (hi : k ≤ i) (hnew : ∀ p ∈ readBy m n log, ¬ SameBody p.1 x.bytes) :
    (GroupCipher.decrypt (S m) n x.bytes).result = .ok x.plaintext := by
  obtain ⟨d0, q⟩ := h.running hC hk
  obtain ⟨hl, msg, r1, r2⟩ := q.sent i x hx
  have hsame : SameBody x.bytes x.bytes :=
    ⟨x.bytes.take (x.bytes.length - 64), x.bytes.drop (x.bytes.length - 64), x.bytes.drop (x.bytes.length - 64),
      (List.take_append_drop _ _).symm, (List.take_append_drop _ _).symm, by rw [List.length_drop]; omega,
      by rw [List.length_drop]; omega⟩
  refine ((q.member m hm).first hC hd (q.announced k d hk).1 q.it q.sent hx hi hsame r1.parses r1.signed ?_).1
  rintro ⟨y, p, s1, s2, s3⟩
  rw [hx] at s1
  cases s1
  exact hnew p s2 s3

omit C [DecidableEq M] in
theorem sameBody_refl {b : Bytes} (h : 64 < b.length) : SameBody b b :=
  ⟨b.take (b.length - 64), b.drop (b.length - 64), b.drop (b.length - 64), (List.take_append_drop _ _).symm,
    (List.take_append_drop _ _).symm, by rw [List.length_drop]; omega, by rw [List.length_drop]; omega⟩

/-- **C72.** A message that has been read is a duplicate from then on. -/
theorem C72_again (hC : C.Lawful) (owner : SenderKeyName → M) (S : M → GroupStore) (log : RoomLog M) (h : RoomReach owner S log)
    (n : SenderKeyName) (m : M) (p : Bytes × Bytes) (hp : p ∈ readBy m n log) (x : GroupSent) (hx : x ∈ sentUnder n log)
    (hpx : SameBody p.1 x.bytes) : GroupCipher.decrypt (S m) n x.bytes = ⟨none, .error .duplicateMessage⟩ := by
  obtain ⟨i, hx⟩ := List.mem_iff_getElem?.1 hx
  rcases h.inv hC n with q | ⟨d0, q⟩
  · rw [q.sent] at hx; simp at hx
  · obtain ⟨hl, msg, r1, r2⟩ := q.sent i x hx
    have hm : m ≠ owner n := by
      rintro rfl
      rw [q.ownRead] at hp
      cases hp
    obtain ⟨j, y, d, rest, s1, s2, s3, s4, s5⟩ := (q.member m hm).reads p hp
    have hij : i = j := q.sent.same hx s1 (hpx.symm.trans s2)
    subst hij
    obtain ⟨⟨k, t1⟩, _⟩ := (q.member m hm).holds d rest s4
    have hdesc := (q.announced k d t1).1
    exact (q.member m hm).again s4 hdesc q.it q.sent hx (by rw [← hdesc.it]; exact s5) (sameBody_refl hl) r1.parses r1.signed
      ⟨x, p, hx, hp, hpx⟩

/-- **C72.** A member cannot read what was sent before the announcement it took up first. -/
theorem C72_before (hC : C.Lawful) (owner : SenderKeyName → M) (S : M → GroupStore) (log : RoomLog M) (h : RoomReach owner S log)
    (n : SenderKeyName) (m : M) (hm : m ≠ owner n) (d : SenderKeyDistributionMessage) (rest : List SenderKeyDistributionMessage)
    (hd : heardBy m n log = d :: rest) (k : Nat) (hk : AnnouncedAt n log k d) (i : Nat) (x : GroupSent)
    (hx : (sentUnder n log)[i]? = some x) (hi : i < k) :
    GroupCipher.decrypt (S m) n x.bytes = ⟨none, .error .duplicateMessage⟩ := by
  obtain ⟨d0, q⟩ := h.running hC hk
  obtain ⟨hl, msg, r1, r2⟩ := q.sent i x hx
  exact (q.member m hm).early hd (q.announced k d hk).1 q.sent hx hi (sameBody_refl hl) r1.parses r1.signed

/-- **C72.** Without an announcement there is no session for the name, whatever arrives. -/
theorem C72_unheard (hC : C.Lawful) (owner : SenderKeyName → M) (S : M → GroupStore) (log : RoomLog M) (h : RoomReach owner S log)
    (n : SenderKeyName) (m : M) (hm : m ≠ owner n) (hd : heardBy m n log = []) (b : Bytes) :
    GroupCipher.decrypt (S m) n b = ⟨none, .error .noSession⟩ := by
  have hnil : (S m n).senderKeyStates = [] := by
    rcases h.inv hC n with q | ⟨d0, q⟩
    · exact q.states m
    · exact (q.member m hm).unheard hd
  unfold GroupCipher.decrypt GroupCipher.decryptWithRecord
  rw [if_pos ((isEmpty_iff _).2 hnil)]
  rfl

/-- **C72.** The owner's own messages are duplicates to the owner. -/
theorem C72_owner (hC : C.Lawful) (owner : SenderKeyName → M) (S : M → GroupStore) (log : RoomLog M) (h : RoomReach owner S log)
    (n : SenderKeyName) (x : GroupSent) (hx : x ∈ sentUnder n log) :
    GroupCipher.decrypt (S (owner n)) n x.bytes = ⟨none, .error .duplicateMessage⟩ := by
  obtain ⟨i, hx⟩ := List.mem_iff_getElem?.1 hx
  rcases h.inv hC n with q | ⟨d0, q⟩
  · rw [q.sent] at hx; simp at hx
  · obtain ⟨hl, msg, r1, r2⟩ := q.sent i x hx
    exact q.own_message hx (sameBody_refl hl) r1.parses r1.signed

/-- **C72.** Whatever a member reads was sent by the owner, after the announcement the member took up first, with this plaintext; the
owner reads nothing. -/
theorem C72_genuine (hC : C.Lawful) (owner : SenderKeyName → M) (S : M → GroupStore) (log : RoomLog M) (h : RoomReach owner S log)
    (n : SenderKeyName) (m : M) (p : Bytes × Bytes) (hp : p ∈ readBy m n log) :
    m ≠ owner n ∧ ∃ (i k : Nat) (x : GroupSent) (d : SenderKeyDistributionMessage) (rest : List SenderKeyDistributionMessage),
      (sentUnder n log)[i]? = some x ∧ SameBody p.1 x.bytes ∧ p.2 = x.plaintext ∧
      heardBy m n log = d :: rest ∧ AnnouncedAt n log k d ∧ k ≤ i := by
  rcases h.inv hC n with q | ⟨d0, q⟩
  · rw [q.read m] at hp; cases hp
  · have hm : m ≠ owner n := by
      rintro rfl
      rw [q.ownRead] at hp
      cases hp
    obtain ⟨j, y, d, rest, s1, s2, s3, s4, s5⟩ := (q.member m hm).reads p hp
    obtain ⟨⟨k, t1⟩, _⟩ := (q.member m hm).holds d rest s4
    exact ⟨hm, j, k, y, d, rest, s1, s2, s3, s4, t1, by rw [← (q.announced k d t1).1.it]; exact s5⟩

/-- **C72.** A member reads a message at most once, even if somebody changes the signature. -/
theorem C72_once (hC : C.Lawful) (owner : SenderKeyName → M) (S : M → GroupStore) (log : RoomLog M) (h : RoomReach owner S log)
    (n : SenderKeyName) (m : M) : (readBy m n log).Pairwise fun p q => ¬ SameBody p.1 q.1 := by
  rcases h.inv hC n with q | ⟨d0, q⟩
  · rw [q.read m]; exact .nil
  · by_cases hm : m = owner n
    · rw [hm, q.ownRead]; exact .nil
    · exact (q.member m hm).once

/-- **C72.** Only the owner of a name can send under it. -/
theorem C72_only_owner (hC : C.Lawful) (owner : SenderKeyName → M) (S : M → GroupStore) (log : RoomLog M) (h : RoomReach owner S log)
    (n : SenderKeyName) (m : M) (hm : m ≠ owner n) (pt rand b : Bytes) (hpt : pt.length < 2 ^ 62) (hrand : rand.length = 64) :
    (GroupCipher.encrypt (S m) n pt rand).result ≠ .ok b := by
  intro hb
  rcases h.inv hC n with q | ⟨d0, q⟩
  · obtain ⟨s, _, _, r, _⟩ := GroupCipher.encrypt_ok hb
    rw [sendingState_none.2 (q.states m)] at r
    cases r
  · exact hm (q.encrypt hC m hpt hrand hb).1

theorem OwnerState.sane (hC : C.Lawful) {d0 : SenderKeyDistributionMessage} {k : Nat} {s : SenderKeyState} (h : OwnerState d0 k s)
    (hid : d0.id < 2 ^ 32) (hk : k < 2 ^ 32) (hc : d0.chainKey.length = 32) : GroupSane s := by
  obtain ⟨seed, _, _, h2, _⟩ := h.pair
  refine ⟨by rw [h.id]; exact hid, by rw [h.pos]; exact hk, ⟨_, _, h2, rfl⟩, ?_⟩
  rw [h.chain, chainAt_len32 hC hc]
  exact Nat.lt_of_lt_of_le (by decide : 32 < 2 ^ 6) (Nat.pow_le_pow_right (by decide) (by decide))

theorem encrypt_result {g : GroupStore} {n : SenderKeyName} {pt rand : Bytes} {x : SenderKeyMessage × SenderKeyRecord}
    (h : GroupCipher.encryptWithRecord (g n) pt rand = .ok x) : (GroupCipher.encrypt g n pt rand).result = .ok x.1.serialized := by
  unfold GroupCipher.encrypt
  rw [h]

/-- **C72.** Once the key is announced the owner can send, as long as the counter fits 32 bits. -/
theorem C72_send (hC : C.Lawful) (owner : SenderKeyName → M) (S : M → GroupStore) (log : RoomLog M) (h : RoomReach owner S log)
    (n : SenderKeyName) (k : Nat) (d : SenderKeyDistributionMessage) (hd : AnnouncedAt n log k d)
    (hroom : (sentUnder n log).length + 1 < 2 ^ 32) (pt rand : Bytes) (hpt : pt.length < 2 ^ 62) (hrand : rand.length = 64) :
    ∃ b, (GroupCipher.encrypt (S (owner n)) n pt rand).result = .ok b := by
  obtain ⟨d0, q⟩ := h.running hC hd
  obtain ⟨s, hs, ho⟩ := q.own
  have hsane := ho.sane hC q.id q.small q.klen
  obtain ⟨rest, hr⟩ : ∃ rest, (S (owner n) n).senderKeyStates = s :: rest := by
    unfold sendingState at hs
    cases hst : (S (owner n) n).senderKeyStates with
    | nil => rw [hst] at hs; cases hs
    | cons a l => rw [hst] at hs; cases hs; exact ⟨l, rfl⟩
  obtain ⟨ct, hct, _⟩ := C01_cipher_roundtrip hC (groupCipherKey (groupSeed (chainKeyOf s))) (groupIv (groupSeed (chainKeyOf s))) pt
    (.inr (.inr (groupCipherKey_length hC.hmac_len _))) (groupIv_length hC.hmac_len _)
  obtain ⟨seed, hseed, hp, _⟩ := ho.pair
  have hplen : (SenderKeyState.getSigningKeyPrivate s).length = 32 := by
    rw [hp]; exact hC.genPriv_len _ hseed
  obtain ⟨sig, hsig, _⟩ := hC.sig_ok rand (SenderKeyState.getSigningKeyPrivate s)
    (groupMessage (s.senderKeyId.getD 0) (iterationOf s) ct) hrand ⟨hplen, seed, hp⟩
  have hsig : C.calcSig rand ((s.senderSigningKey.getD {}).priv.getD [])
    (groupMessage (s.senderKeyId.getD 0) (iterationOf s) ct) = some sig := hsig
  have hst := encrypt_state hC (rand := rand) hr hsane hpt (aes_cbc hC hct)
  rw [hsig] at hst
  dsimp only at hst
  rw [next_chain_ok (by rw [ho.pos]; exact hroom), ok_bind] at hst
  exact ⟨_, encrypt_result hst⟩

/-- **C72.** The owner can announce the key at any time; what is announced says how many messages have been sent. -/
theorem C72_announce (hC : C.Lawful) (owner : SenderKeyName → M) (S : M → GroupStore) (log : RoomLog M) (h : RoomReach owner S log)
    (n : SenderKeyName) (k : Nat) (d : SenderKeyDistributionMessage) (hd : AnnouncedAt n log k d)
    (rnd : GroupSessionBuilder.CreateRand) :
    ∃ d', (GroupSessionBuilder.create (S (owner n)) n rnd).stored = none ∧
      (GroupSessionBuilder.create (S (owner n)) n rnd).result = .ok d' ∧
      SenderKeyDistributionMessage.parse d'.serialized = .ok d' ∧ d'.id = d.id ∧ d'.signatureKey = d.signatureKey ∧
      d'.iteration = (sentUnder n log).length := by
  obtain ⟨d0, q⟩ := h.running hC hd
  obtain ⟨s, hs, ho⟩ := q.own
  have hdesc := (q.announced k d hd).1
  have hne : (S (owner n) n).senderKeyStates ≠ [] := fun r => by
    rw [sendingState_none.2 r] at hs; cases hs
  have hck : (chainKeyOf s).length < 2 ^ 63 := by
    rw [ho.chain, chainAt_len32 hC q.klen]; omega
  obtain ⟨d', r1, r2, r3, r4, r5, r6⟩ := C05_distribution_roundtrip (s.senderKeyId.getD 0) (iterationOf s) (by rw [ho.id]; exact q.id)
    (by rw [ho.pos]; exact q.small) (chainKeyOf s) hck d0.signatureKey q.slen
  refine ⟨d', by rw [create_again hne], ?_, r2, by rw [r3, ho.id, hdesc.id], by rw [r6, hdesc.sig], by rw [r4, ho.pos]⟩
  rw [create_again hne]
  unfold GroupSessionBuilder.distributionOf
  rw [SenderKeyRecord.getFirstState_ok.2 hs, ok_bind, ho.pub q.slen, ok_bind, position_eq, chainKeyOf_eq, show SenderKeyState.getKeyId s = s.senderKeyId.getD 0 from rfl, r1]
  rfl

end

/-! ## Non-vacuity -/

section
attribute [local instance] toy
open Example Spec

deriving instance DecidableEq for GroupSent

/-- Member 0 owns every name. -/
def Example.roomOwner (_ : SenderKeyName) : Nat := 0

def Example.roomCalls : List (Nat × GroupCall) :=
  [(0, .create grp grpRand), (0, .encrypt grp [1] grpSig), (1, .process grp grpDist), (0, .encrypt grp [2, 2] grpSig),
   (0, .create grp grpRand), (2, .process grp grpDistLate), (0, .encrypt grp [] grpSig), (1, .decrypt grp (grpMsg 1)),
   (2, .decrypt grp [1, 2, 3])]

/-- The stores and the log after a list of calls. -/
def Example.roomRun (cs : List (Nat × GroupCall)) : (Nat → GroupStore) × RoomLog Nat :=
  cs.foldl (fun st c => (fun x => if x = c.1 then c.2.next (st.1 c.1) else st.1 x,
    st.2 ++ [⟨c.1, c.2, (c.2.run (st.1 c.1)).result⟩])) (fun _ => GroupStore.empty, [])

theorem Example.roomRun_reach (cs : List (Nat × GroupCall))
    (h : ∀ i (hi : i < cs.length), RoomAllowed roomOwner (roomRun (cs.take i)).2 cs[i].1 cs[i].2
      (cs[i].2.run ((roomRun (cs.take i)).1 cs[i].1)).result) :
    RoomReach roomOwner (roomRun cs).1 (roomRun cs).2 := by
  have : ∀ i, i ≤ cs.length → RoomReach roomOwner (roomRun (cs.take i)).1 (roomRun (cs.take i)).2 := by
    intro i
    induction i with
    | zero => intro _; exact .start
    | succ i ih =>
      intro hi
      have := RoomReach.call cs[i].1 cs[i].2 (ih (by omega)) (h i (by omega))
      rw [List.take_succ_eq_append_getElem (by omega)]
      unfold roomRun at this ⊢
      rw [List.foldl_append]
      exact this
  have := this cs.length (Nat.le_refl _)
  rw [List.take_length] at this
  exact this

theorem Example.announced_index {log : RoomLog Nat} {n : SenderKeyName} {d : SenderKeyDistributionMessage} (i k : Nat)
    (h : (match log[i]? with
      | some ⟨_, .create n' _, .ok (.distribution d0)⟩ => decide (n' = n ∧
          (SenderKeyDistributionMessage.parse d0.serialized).toOption = some d ∧ (sentUnder n (log.take i)).length = k)
      | _ => false) = true) : AnnouncedAt n log k d := by
  cases he : log[i]? with
  | none => rw [he] at h; cases h
  | some e =>
    rw [he] at h
    obtain ⟨m, c, r⟩ := e
    cases c with
    | create n' rnd =>
      cases r with
      | error e => cases h
      | ok r =>
        cases r with
        | distribution d0 =>
          obtain ⟨rfl, h1, h2⟩ := of_decide_eq_true h
          obtain ⟨hi, hget⟩ := List.getElem?_eq_some_iff.1 he
          refine ⟨log.take i, ⟨m, .create n' rnd, .ok (.distribution d0)⟩, log.drop (i + 1), rnd, d0, ?_, rfl, rfl, ?_, h2⟩
          · rw [← hget, ← List.drop_eq_getElem_cons hi, List.take_append_drop]
          · cases hp : SenderKeyDistributionMessage.parse d0.serialized with
            | error e => rw [hp] at h1; cases h1
            | ok x => rw [hp] at h1; cases h1; rfl
        | bytes b => cases h
        | done => cases h
    | _ => cases h

/-- The calls above are allowed: a member may process what was announced, and what nobody has sent is not accepted. -/
theorem Example.room_reach : RoomReach roomOwner (roomRun roomCalls).1 (roomRun roomCalls).2 := by
  apply roomRun_reach
  intro i hi
  have hi : i < 9 := hi
  have : i = 0 ∨ i = 1 ∨ i = 2 ∨ i = 3 ∨ i = 4 ∨ i = 5 ∨ i = 6 ∨ i = 7 ∨ i = 8 := by omega
  rcases this with rfl | rfl | rfl | rfl | rfl | rfl | rfl | rfl | rfl
  · exact ⟨rfl, by decide +kernel, by decide +kernel⟩
  · exact ⟨by decide +kernel, by decide +kernel⟩
  · exact ⟨0, announced_index 0 0 (by decide +kernel)⟩
  · exact ⟨by decide +kernel, by decide +kernel⟩
  · exact ⟨rfl, by decide +kernel, by decide +kernel⟩
  · exact ⟨2, announced_index 4 2 (by decide +kernel)⟩
  · exact ⟨by decide +kernel, by decide +kernel⟩
  · intro x _
    have hmem : (⟨grp, [2, 2], grpMsg 1⟩ : GroupSent) ∈ sentUnder grp (roomRun (roomCalls.take 7)).2 := by decide +kernel
    exact ⟨_, hmem, sameBody_refl (by decide +kernel)⟩
  · intro x hx
    have : ((GroupCall.decrypt grp [1, 2, 3]).run ((roomRun (roomCalls.take 8)).1 2)).result.toOption = none := by decide +kernel
    have hx : ((GroupCall.decrypt grp [1, 2, 3]).run ((roomRun (roomCalls.take 8)).1 2)).result = .ok x := hx
    rw [hx] at this
    cases this

/-- `C72_*`: three messages have been sent; member 1 has the announcement from the beginning and has read the second message, member 2
has the announcement made after two messages, member 3 has none. -/
example : (sentUnder grp (roomRun roomCalls).2).map (·.plaintext) = [[1], [2, 2], []] ∧
    heardBy 1 grp (roomRun roomCalls).2 = [grpDist] ∧ heardBy 2 grp (roomRun roomCalls).2 = [grpDistLate] ∧
    heardBy 3 grp (roomRun roomCalls).2 = [] ∧ readBy 1 grp (roomRun roomCalls).2 = [(grpMsg 1, [2, 2])] := by decide +kernel

/-- `C72_read`, `C72_announce`, `C72_send`: member 1 has not read the first message. -/
example : (GroupCipher.decrypt ((roomRun roomCalls).1 1) grp (grpMsg 0)).result = .ok [1] ∧
    (∃ b, (GroupCipher.encrypt ((roomRun roomCalls).1 0) grp [7] grpSig).result = .ok b) := by
  constructor
  · refine C72_read toy_lawful roomOwner _ _ room_reach grp 1 (by decide) grpDist [] (by decide +kernel) 0
      (announced_index 0 0 (by decide +kernel)) 0 ⟨grp, [1], grpMsg 0⟩ (by decide +kernel) (by decide) ?_
    intro p hp
    have hr : readBy 1 grp (roomRun roomCalls).2 = [(grpMsg 1, [2, 2])] := by decide +kernel
    rw [hr] at hp
    rw [List.mem_singleton.1 hp]
    intro h
    have := h.body
    revert this
    decide +kernel
  · exact C72_send toy_lawful roomOwner _ _ room_reach grp 0 grpDist (announced_index 0 0 (by decide +kernel)) (by decide +kernel)
      [7] grpSig (by decide +kernel) (by decide +kernel)

/-- `C72_again`, `C72_before`, `C72_unheard`, `C72_owner`. -/
example : GroupCipher.decrypt ((roomRun roomCalls).1 1) grp (grpMsg 1) = ⟨none, .error .duplicateMessage⟩ ∧
    GroupCipher.decrypt ((roomRun roomCalls).1 2) grp (grpMsg 1) = ⟨none, .error .duplicateMessage⟩ ∧
    GroupCipher.decrypt ((roomRun roomCalls).1 3) grp (grpMsg 2) = ⟨none, .error .noSession⟩ ∧
    GroupCipher.decrypt ((roomRun roomCalls).1 0) grp (grpMsg 1) = ⟨none, .error .duplicateMessage⟩ := by
  have hs : (⟨grp, [2, 2], grpMsg 1⟩ : GroupSent) ∈ sentUnder grp (roomRun roomCalls).2 := by decide +kernel
  refine ⟨?_, ?_, ?_, ?_⟩
  · have hr : readBy 1 grp (roomRun roomCalls).2 = [(grpMsg 1, [2, 2])] := by decide +kernel
    exact C72_again toy_lawful roomOwner _ _ room_reach grp 1 (grpMsg 1, [2, 2]) (by rw [hr]; exact List.mem_singleton.2 rfl)
      ⟨grp, [2, 2], grpMsg 1⟩ hs (sameBody_refl (by decide +kernel))
  · exact C72_before toy_lawful roomOwner _ _ room_reach grp 2 (by decide) grpDistLate [] (by decide +kernel) 2
      (announced_index 4 2 (by decide +kernel)) 1 ⟨grp, [2, 2], grpMsg 1⟩ (by decide +kernel) (by decide)
  · exact C72_unheard toy_lawful roomOwner _ _ room_reach grp 3 (by decide) (by decide +kernel) _
  · exact C72_owner toy_lawful roomOwner _ _ room_reach grp ⟨grp, [2, 2], grpMsg 1⟩ hs

end
end Axolotl
