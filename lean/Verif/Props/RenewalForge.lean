import Verif.Spec.RenewalForge
import Verif.Props.Renewal

/-!
# C103: after a theft, a new sender key keeps forgers and readers out

C102 assumes of the safe keys that nobody else can sign with them; here this follows from what can be computed.  The keys that are
announced after a theft of all records are safe.
-/

namespace Axolotl
section
variable [C : Crypto]
open Spec ByteUtil
variable {M : Type} [DecidableEq M]

/-- What is accepted under a safe key is accepted in the room of this key. -/
theorem view_of_accepted (hC : C.Lawful) {owner : SenderKeyName → M} {safe : SenderKeyName → Nat → Prop} {S : M → GroupStore}
    {log : RoomLog M} (h : RenewReach owner safe S log) {n : SenderKeyName} {id : Nat} (hsafe : safe n id) {m : M} {b pt : Bytes}
    (hb : messageKeyId b = some id) (hr : (GroupCipher.decrypt (S m) n b).result = .ok pt) :
    ∃ V, RoomReach owner V (ofKey n id log) ∧ (GroupCipher.decrypt (V m) n b).result = .ok pt := by
  obtain ⟨V, hV⟩ := (h.inv hC n).view id hsafe
  refine ⟨V, hV.reach, ?_⟩
  obtain ⟨msg, s, j, s', _, _, p1, p2, _⟩ := GroupCipher.decrypt_ok hr
  have hf := SenderKeyRecord.findState_ok p2
  have hmem : s ∈ (S m n).senderKeyStates := List.mem_of_find?_eq_some hf.2.1
  have hsid : s.senderKeyId.getD 0 = id := by
    have h1 := List.find?_some hf.2.1
    rw [messageKeyId_of p1] at hb
    rw [← Option.some.inj hb]
    simpa using h1
  by_cases hm : m = owner n
  · subst hm
    rcases (h.inv hC n).own with ⟨q, _⟩ | ⟨s0, q1, _⟩
    · rw [q] at hmem; cases hmem
    · have hs : s = s0 := by rw [q1] at hmem; exact List.mem_singleton.1 hmem
      subst hs
      rw [decrypt_congr (hV.current s q1 hsid)]
      exact hr
  · have hne : (V m n).senderKeyStates ≠ [] := by
      rw [hV.member m hm]
      exact List.ne_nil_of_mem (List.mem_filter.2 ⟨hmem, by simp [hsid]⟩)
    rw [← (view_decrypt (hV.member m hm) hb hne).1]
    exact hr

/-- **C103.** If an attacker without the signing key of a safe key gets bytes accepted under it, the owner sent them, up to the
signature. -/
theorem C103_accepted (hC : C.Lawful) (owner : SenderKeyName → M) (safe : SenderKeyName → Nat → Prop) (S : M → GroupStore)
    (log : RoomLog M) (h : RenewReach owner safe S log) (n : SenderKeyName) (id : Nat) (hsafe : safe n id) (m : M) (b pt : Bytes)
    (hb : messageKeyId b = some id) (hr : (GroupCipher.decrypt (S m) n b).result = .ok pt)
    (hcraft : ∀ d, AnnouncedAt n (ofKey n id log) 0 d → ∃ p rand headers l,
      GroupWritten d.chainKey d.signatureKey p rand headers n (ofKey n id log) ∧ ¬ l.signing ∧
      GroupCrafted d.chainKey d.signatureKey p rand headers l n (ofKey n id log) b) :
    ∃ y ∈ sentUnder n (ofKey n id log), SameBody b y.bytes := by
  obtain ⟨V, hV, hr'⟩ := view_of_accepted hC h hsafe hb hr
  exact C96_accepted hC owner V _ hV n m b pt hr' hcraft

/-- **C103.** So what C102 assumes of the safe keys follows: everything C102 says holds against an attacker who does anything with the
other keys, and has anything of the safe ones but the signing key. -/
theorem C103_reach (hC : C.Lawful) (owner : SenderKeyName → M) (safe : SenderKeyName → Nat → Prop) (S : M → GroupStore)
    (log : RoomLog M) (h : RenewCraftReach owner safe S log) : RenewReach owner safe S log := by
  induction h with
  | start => exact .start
  | @call S log m c _ hall ih =>
    refine .call m c ih ?_
    cases c with
    | encrypt n pt rand => exact hall
    | create n rnd => exact hall
    | process n d => exact hall
    | decrypt n b =>
      intro x id hx hid hsafe
      cases hr : (GroupCipher.decrypt (S m) n b).result with
      | ok pt =>
        obtain ⟨y, hy, hby⟩ := C103_accepted hC owner safe S log ih n id hsafe m b pt hid hr (hall id hid hsafe)
        exact ⟨y, (sent_ofKey.1 hy).1, hby⟩
      | error e =>
        have hx : (GroupCall.mapG GroupReply.bytes (GroupCipher.decrypt (S m) n b)).result = .ok x := hx
        unfold GroupCall.mapG at hx
        simp only [hr] at hx
        cases hx
  | renew n rnd _ h1 h2 h3 h4 ih => exact .renew n rnd ih h1 h2 h3 h4

/-- **C103.** The messages sent under a safe key are, byte for byte, what the terms say, with the chain key and the signing key in
its first announcement. -/
theorem C103_written (hC : C.Lawful) (owner : SenderKeyName → M) (safe : SenderKeyName → Nat → Prop) (S : M → GroupStore)
    (log : RoomLog M) (h : RenewReach owner safe S log) (n : SenderKeyName) (id : Nat) (hsafe : safe n id)
    (d : SenderKeyDistributionMessage) (hd : AnnouncedAt n (ofKey n id log) 0 d) :
    ∃ p rand headers, GroupWritten d.chainKey d.signatureKey p rand headers n (ofKey n id log) := by
  obtain ⟨V, hV, _⟩ := C102_each hC owner safe S log h n id hsafe
  exact C96_written hC owner V _ hV n d hd

/-- **C103.** Nothing is needed to pass on messages that were sent under safe keys, nor to deliver whatever one likes under others. -/
theorem C103_replay (hC : C.Lawful) (owner : SenderKeyName → M) (safe : SenderKeyName → Nat → Prop) (S : M → GroupStore)
    (log : RoomLog M) (h : RenewReach owner safe S log) (n : SenderKeyName) (m : M) (b : Bytes)
    (hb : ∀ id, messageKeyId b = some id → safe n id → ∃ x ∈ sentUnder n log, SameBody b x.bytes) :
    RenewCraftAllowed owner safe log m (.decrypt n b) := by
  intro id hid hsafe
  obtain ⟨x, hx, hbx⟩ := hb id hid hsafe
  obtain ⟨V, hV, _⟩ := C102_each hC owner safe S log h n id hsafe
  have hx' : x ∈ sentUnder n (ofKey n id log) := by
    refine sent_ofKey.2 ⟨hx, ?_⟩
    obtain ⟨hl, mx, hmx⟩ := h.sent_long hC hx
    obtain ⟨mb, hmb, e⟩ := messageKeyId_some hid
    rw [messageKeyId_of hmx, ← (hbx.symm.parse hl hmx hmb).1, e]
  exact C96_replay hC owner V _ hV n m x hx' b hbx

/-! ## The thief -/

/-- **C103.** The theft of all records of all members and of the owner, of all announcements and plaintexts, does not give the signing
key of a key announced later; nor do the records that the members have at any later time. -/
theorem C103_no_signing (hC : C.Lawful) (owner : SenderKeyName → M) (safe safe' : SenderKeyName → Nat → Prop) (S S' : M → GroupStore)
    (log log' : RoomLog M) (h : RenewReach owner safe S log) (h' : RenewReach owner safe' S' log') (n : SenderKeyName) (id : Nat)
    (hnew : Unannounced log n id) (T : M → Prop) (intercepted texts intercepted' texts' : Nat → Prop) :
    ¬ ((groupTheft n (onlyKey n id S) T intercepted texts).both
      (groupTheft n (onlyKey n id S') (· ≠ owner n) intercepted' texts')).signing := by
  rintro (⟨m, s, _, q, _⟩ | ⟨m, s, hm, q, hne⟩)
  · have : s ∈ statesOf id (S m n) := by
      unfold onlyKey at q
      rw [if_pos rfl] at q
      exact q
    rw [(h.not_yet hC hnew).1 m] at this
    cases this
  · have : s ∈ statesOf id (S' m n) := by
      unfold onlyKey at q
      rw [if_pos rfl] at q
      exact q
    exact hne ((h'.inv hC n).priv m hm s (List.mem_filter.1 this).1)

/-- **C103.** So after the theft of everything, bytes computed from it, from the present records of all members, from all messages,
announcements and plaintexts, that are accepted under a key announced since, were sent by the owner, up to the signature. -/
theorem C103_thief (hC : C.Lawful) (owner : SenderKeyName → M) (safe : SenderKeyName → Nat → Prop) (S S' : M → GroupStore)
    (log more : RoomLog M) (h : RenewReach owner safe S log) (h' : RenewReach owner (Unannounced log) S' (log ++ more))
    (n : SenderKeyName) (id : Nat) (hnew : Unannounced log n id) (p : ECPriv) (rand : Bytes → Bytes) (headers : Nat → Bytes)
    (d : SenderKeyDistributionMessage) (hd : AnnouncedAt n (ofKey n id (log ++ more)) 0 d)
    (hw : GroupWritten d.chainKey d.signatureKey p rand headers n (ofKey n id (log ++ more))) (m : M) (b pt : Bytes)
    (hb : messageKeyId b = some id)
    (hc : GroupCrafted d.chainKey d.signatureKey p rand headers
      ((groupTheft n (onlyKey n id S) (fun _ => True) (fun _ => True) (fun _ => True)).both
        (groupTheft n (onlyKey n id S') (· ≠ owner n) (fun _ => True) (fun _ => True))) n (ofKey n id (log ++ more)) b)
    (hr : (GroupCipher.decrypt (S' m) n b).result = .ok pt) :
    ∃ y ∈ sentUnder n (ofKey n id (log ++ more)), SameBody b y.bytes := by
  refine C103_accepted hC owner _ S' _ h' n id hnew m b pt hb hr fun d' hd' => ?_
  obtain ⟨V, hV, _⟩ := C102_each hC owner _ S' _ h' n id hnew
  obtain ⟨d0, hrun, e1, e2⟩ := first_announced hC hV hd
  have k1 := (hrun.announced 0 d hd).1
  have k2 := (hrun.announced 0 d' hd').1
  rw [show d'.chainKey = d.chainKey by rw [k1.chain, k2.chain], show d'.signatureKey = d.signatureKey by rw [k1.sig, k2.sig]]
  exact ⟨p, rand, headers, _, hw, C103_no_signing hC owner _ _ S S' _ _ h h' n id hnew _ _ _ _ _, hc⟩

/-- **C103.** The theft does not help to read either: with it, and with the records of any members at a later time, the attacker can read
a message under a key announced since exactly if they could without it. -/
theorem C103_read (hC : C.Lawful) (owner : SenderKeyName → M) (safe : SenderKeyName → Nat → Prop) (S S' S'' : M → GroupStore)
    (log more rest : RoomLog M) (h : RenewReach owner safe S log) (h' : RenewReach owner (Unannounced log) S' (log ++ more))
    (h'' : RenewReach owner (Unannounced log) S'' (log ++ more ++ rest)) (n : SenderKeyName) (id : Nat) (hnew : Unannounced log n id)
    (T : M → Prop) (intercepted texts : Nat → Prop) (headers : Nat → Bytes) (d : SenderKeyDistributionMessage)
    (hd : AnnouncedAt n (ofKey n id (log ++ more)) 0 d) (i : Nat) (x : GroupSent)
    (hx : (sentUnder n (ofKey n id (log ++ more ++ rest)))[i]? = some x) (ht : ¬ texts i) :
    GDerives (((groupTheft n (onlyKey n id S) (fun _ => True) (fun _ => False) texts).both
          (groupTheft n (onlyKey n id S') T intercepted texts)).Has headers
        (sentUnder n (ofKey n id (log ++ more ++ rest))).length) (.text i) ↔
      (∃ k ≤ i, intercepted k) ∨
      ∃ m, (T m ∧ (m = owner n → ∃ e, LastAnnounced n (log ++ more) e ∧ e.id = id)) ∧
        Exposes owner n (ofKey n id (log ++ more)) m i x.bytes := by
  have hnone : ∀ m, (onlyKey n id S m n).senderKeyStates = [] := fun m => by
    unfold onlyKey
    rw [if_pos rfl]
    exact (h.not_yet hC hnew).1 m
  have he : (groupTheft n (onlyKey n id S) (fun _ => True) (fun _ => False) texts).both
      (groupTheft n (onlyKey n id S') T intercepted texts) = groupTheft n (onlyKey n id S') T intercepted texts := by
    unfold GLeak.both groupTheft
    simp [hnone]
  rw [he]
  exact C102_theft hC owner _ S' S'' (log ++ more) rest h' h'' n id hnew T intercepted texts headers d hd i x hx ht

/-- **C103.** So in groups whose keys were all stolen at some moment, whatever a member reads under a key announced since was sent by the
owner of the name with this plaintext, and is read once; everything else C102 says holds too. -/
theorem C103_genuine (hC : C.Lawful) (owner : SenderKeyName → M) (S : M → GroupStore) (log more : RoomLog M)
    (h : RenewCraftReach owner (Unannounced log) S (log ++ more)) (n : SenderKeyName) (m : M) :
    (∀ p ∈ readBy m n (log ++ more), ∀ id, messageKeyId p.1 = some id → Unannounced log n id →
      ∃ x ∈ sentUnder n (log ++ more), SameBody p.1 x.bytes ∧ p.2 = x.plaintext) ∧
    (readBy m n (log ++ more)).Pairwise fun p q => ∀ id, messageKeyId p.1 = some id → Unannounced log n id → ¬ SameBody p.1 q.1 := by
  have hr := C103_reach hC owner _ S _ h
  refine ⟨fun p hp id hid hnew => ?_, C102_once hC owner _ S _ hr n m⟩
  obtain ⟨_, i, _, x, _, _, hx, h1, h2, _⟩ := C102_genuine hC owner _ S _ hr n id hnew m p hp hid
  exact ⟨x, (sent_ofKey.1 (List.mem_of_getElem? hx)).1, h1, h2⟩

end

/-! ## Non-vacuity: the thief of C102 -/

section
attribute [local instance] toy
open Example Spec

/-- The run of C102, and then the message of the thief. -/
def Example.thiefCalls : List ((Nat × GroupCall) ⊕ GroupSessionBuilder.CreateRand) := renewCalls ++ [.inl (1, .decrypt grp thiefMsg)]

/-- What had been called when the records were stolen, just before the renewal. -/
def Example.theftLog : RoomLog Nat := (renewRun (renewCalls.take 6)).2

def Example.CraftOk (safe : SenderKeyName → Nat → Prop) (st : (Nat → GroupStore) × RoomLog Nat) :
    (Nat × GroupCall) ⊕ GroupSessionBuilder.CreateRand → Prop
  | .inl (_, .decrypt n b) => ∀ id, messageKeyId b = some id → safe n id → ∃ x ∈ sentUnder n st.2, SameBody b x.bytes
  | .inl (m, c) => RenewCraftAllowed roomOwner safe st.2 m c
  | .inr rnd => rnd.senderKey.length = 32 ∧ rnd.signSeed.length = 32 ∧ rnd.keyId < 2 ^ 32 ∧
      ∀ d, Announced grp st.2 d → d.id ≠ rnd.keyId

theorem Example.craftRun_reach (safe : SenderKeyName → Nat → Prop) (cs : List ((Nat × GroupCall) ⊕ GroupSessionBuilder.CreateRand))
    (h : ∀ i (hi : i < cs.length), CraftOk safe (renewRun (cs.take i)) cs[i]) (i : Nat) (hi : i ≤ cs.length) :
    RenewCraftReach roomOwner safe (renewRun (cs.take i)).1 (renewRun (cs.take i)).2 := by
  induction i with
  | zero => exact .start
  | succ i ih =>
    have hok := h i (by omega)
    have ih := ih (by omega)
    have e : renewRun (cs.take (i + 1)) = renewStep (renewRun (cs.take i)) cs[i] := by
      rw [List.take_succ_eq_append_getElem (by omega)]
      unfold renewRun
      rw [List.foldl_append]
      rfl
    rw [e]
    cases hc : cs[i] with
    | inl c =>
      rw [hc] at hok
      obtain ⟨m, c⟩ := c
      refine RenewCraftReach.call m c ih ?_
      cases c with
      | decrypt n b => exact C103_replay toy_lawful roomOwner safe _ _ (C103_reach toy_lawful _ _ _ _ ih) n m b hok
      | encrypt n pt rand => exact hok
      | create n rnd => exact hok
      | process n d => exact hok
    | inr rnd =>
      rw [hc] at hok
      exact RenewCraftReach.renew grp rnd ih hok.1 hok.2.1 hok.2.2.1 hok.2.2.2

theorem Example.old_key (hid : Unannounced theftLog grp 77) : False :=
  hid grpDist (announcedAt_announced (k := 0) (announced_index 0 0 (by decide +kernel))) (by decide +kernel)

theorem Example.new_key : Unannounced theftLog grp 78 := unused_id (by decide +kernel)

theorem Example.craft_reach :
    RenewCraftReach roomOwner (Unannounced theftLog) (renewRun thiefCalls).1 (renewRun thiefCalls).2 := by
  refine craftRun_reach _ thiefCalls (fun i hi => ?_) 11 (Nat.le_refl _)
  have hi : i < 11 := hi
  have : i = 0 ∨ i = 1 ∨ i = 2 ∨ i = 3 ∨ i = 4 ∨ i = 5 ∨ i = 6 ∨ i = 7 ∨ i = 8 ∨ i = 9 ∨ i = 10 := by omega
  rcases this with rfl | rfl | rfl | rfl | rfl | rfl | rfl | rfl | rfl | rfl | rfl
  · exact ⟨rfl, by decide +kernel, by decide +kernel⟩
  · exact ⟨by decide +kernel, announcedAt_announced (announced_index 0 0 (by decide +kernel))⟩
  · exact ⟨by decide +kernel, announcedAt_announced (announced_index 0 0 (by decide +kernel))⟩
  · exact ⟨by decide +kernel, by decide +kernel⟩
  · intro _ _ _
    have hmem : (⟨grp, [1], grpMsg 0⟩ : GroupSent) ∈ sentUnder grp (renewRun (thiefCalls.take 4)).2 := by decide +kernel
    exact ⟨_, hmem, sameBody_refl (by decide +kernel)⟩
  · exact ⟨by decide +kernel, by decide +kernel⟩
  · exact ⟨by decide +kernel, by decide +kernel, by decide +kernel, unused_id (by decide +kernel)⟩
  · exact ⟨by decide +kernel, announcedAt_announced (k := 2) (announced_index 6 2 (by decide +kernel))⟩
  · exact ⟨by decide +kernel, by decide +kernel⟩
  · intro _ _ _
    have hmem : (⟨grp, [5], newMsg⟩ : GroupSent) ∈ sentUnder grp (renewRun (thiefCalls.take 9)).2 := by decide +kernel
    exact ⟨_, hmem, sameBody_refl (by decide +kernel)⟩
  · intro id h1 h2
    have h3 : messageKeyId thiefMsg = some 77 := by decide +kernel
    rw [h3] at h1
    cases h1
    exact (old_key h2).elim

theorem Example.theft_split : (renewRun thiefCalls).2 = theftLog ++ (renewRun thiefCalls).2.drop 6 := by
  have : theftLog = (renewRun thiefCalls).2.take 6 := by
    unfold theftLog renewRun
    rfl
  rw [this, List.take_append_drop]

/-- `C103_genuine`: member 1 has read a message of the thief under the old key, but what it has read under the new one is the owner's. -/
example : (thiefMsg, [9]) ∈ readBy 1 grp (renewRun thiefCalls).2 ∧
    ∃ x ∈ sentUnder grp (renewRun thiefCalls).2, SameBody newMsg x.bytes ∧ [5] = x.plaintext := by
  refine ⟨by decide +kernel, ?_⟩
  have hr := craft_reach
  rw [theft_split] at hr
  have := (C103_genuine toy_lawful roomOwner _ theftLog _ hr grp 1).1 (newMsg, [5]) (by rw [← theft_split]; decide +kernel) 78
    (by decide +kernel) new_key
  rw [← theft_split] at this
  exact this

/-- `C103_no_signing`, `C103_thief`: the hypotheses are met by this run, with the theft before the renewal. -/
example (d : SenderKeyDistributionMessage) (hd : AnnouncedAt grp (ofKey grp 78 (renewRun thiefCalls).2) 0 d) :
    (∃ p rand headers, GroupWritten d.chainKey d.signatureKey p rand headers grp (ofKey grp 78 (renewRun thiefCalls).2)) ∧
    AnnouncedAt grp (ofKey grp 78 (renewRun thiefCalls).2) 0 newDist ∧
    ¬ ((groupTheft grp (onlyKey grp 78 (renewRun (renewCalls.take 6)).1) (fun _ => True) (fun _ => True) (fun _ => True)).both
      (groupTheft grp (onlyKey grp 78 (renewRun thiefCalls).1) (· ≠ 0) (fun _ => True) (fun _ => True))).signing := by
  have hr := C103_reach toy_lawful _ _ _ _ craft_reach
  exact ⟨C103_written toy_lawful roomOwner _ _ _ hr grp 78 new_key d hd, announced_index 0 0 (by decide +kernel),
    C103_no_signing toy_lawful roomOwner _ _ _ _ _ _ (renew_run (fun _ _ => True) 6 (by decide)) hr grp 78 new_key _ _ _ _ _⟩

/-- `C103_read`: the record of member 2, who has not taken up the new key, and all records from before do not open the new message. -/
example (headers : Nat → Bytes) :
    ¬ GDerives (((groupTheft grp (onlyKey grp 78 (renewRun (renewCalls.take 6)).1) (fun _ => True) (fun _ => False) (fun _ => False)).both
        (groupTheft grp (onlyKey grp 78 (renewRun thiefCalls).1) (· = 2) (fun _ => False) (fun _ => False))).Has headers 1) (.text 0) := by
  have hr := C103_reach toy_lawful _ _ _ _ craft_reach
  rw [theft_split] at hr
  have hx : (sentUnder grp (ofKey grp 78 (theftLog ++ (renewRun thiefCalls).2.drop 6 ++ [])))[0]? = some ⟨grp, [5], newMsg⟩ := by
    decide +kernel
  have hlen : (sentUnder grp (ofKey grp 78 (theftLog ++ (renewRun thiefCalls).2.drop 6 ++ []))).length = 1 := by decide +kernel
  have key := C103_read toy_lawful roomOwner _ _ _ _ theftLog _ [] (renew_run (fun _ _ => True) 6 (by decide)) hr
    (by rw [List.append_nil]; exact hr) grp 78 new_key (· = 2) (fun _ => False) (fun _ => False) headers newDist
    (announced_index 0 0 (by decide +kernel)) 0 _ hx (fun q => q)
  rw [hlen] at key
  intro q
  rcases key.1 q with ⟨_, _, q⟩ | ⟨m, ⟨rfl, _⟩, hexp⟩
  · exact q
  · unfold Exposes at hexp
    rw [if_neg (by decide)] at hexp
    obtain ⟨d, rest, h1, _⟩ := hexp
    have hh : heardBy 2 grp (ofKey grp 78 (theftLog ++ (renewRun thiefCalls).2.drop 6)) = [] := by decide +kernel
    rw [hh] at h1
    cases h1

end
end Axolotl
