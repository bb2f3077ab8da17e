import Verif.Proofs.GroupBackup

/-!
# C93: groups whose members restore backups

As C72, but every member may go back to any earlier state of its store at any moment and as often as it likes, while the others go on.
-/

namespace Axolotl
section
variable [C : Crypto]
open Spec
variable {M : Type} [DecidableEq M]

/-- **C93.** Only the owner of a name sends under it.  The number of the next message is greater than those of all messages which the
store of the owner remembers having sent or read, and it is the first such number; so after a restore the numbers of forgotten
messages are given out again. -/
theorem C93_number (hC : C.Lawful) (owner : SenderKeyName → M) (past : List (Room M)) (r : Room M) (h : BackupReach owner past r)
    (n : SenderKeyName) (m : M) (pt rand b : Bytes) (hpt : pt.length < 2 ^ 62) (hrand : rand.length = 64)
    (hb : (GroupCipher.encrypt (r.store m) n pt rand).result = .ok b) :
    m = owner n ∧ ∃ i, HasNumber b i ∧
      (∀ j, ReadNumber m n (r.own m) j ∨ SentNumber n (r.own m) j → j < i) ∧
      (i = 0 ∨ ReadNumber m n (r.own m) (i - 1) ∨ SentNumber n (r.own m) (i - 1)) := by
  rcases h.state hC n with ⟨q, _⟩ | ⟨d0, q, _⟩
  · obtain ⟨s, _, _, q1, _⟩ := GroupCipher.encrypt_ok hb
    rw [sendingState_none.2 (q.states m)] at q1
    cases q1
  · have hm := q.encrypts hC m hpt hrand hb
    subst hm
    obtain ⟨s, hs, hid, hlast, hlt, hk, hpair⟩ := q.party.state
    obtain ⟨hsent, hfit, _⟩ := owner_sends hC hid hk q.it q.id q.slen hpair hs hpt hrand hb
    refine ⟨rfl, iterationOf s, hsent.number, ?_, ?_⟩
    · intro j hj
      exact ((hk.used j (by rw [q.it]; exact Nat.zero_le _)).1 hj).1
    · by_cases h0 : iterationOf s = 0
      · exact .inl h0
      · rcases hlast with hl | hl
        · exact absurd hl h0
        · exact .inr ((hk.used (iterationOf s - 1) (by rw [q.it]; exact Nat.zero_le _)).2 ⟨by omega, hl⟩)

/-- The message with its number. -/
theorem BRunning.message {owner : SenderKeyName → M} {r : Room M} {n : SenderKeyName} {d0 : SenderKeyDistributionMessage}
    (q : BRunning owner r n d0) {x : GroupSent} (hx : x ∈ sentUnder n r.log) {i : Nat} (hi : HasNumber x.bytes i) : BSent d0 x i := by
  obtain ⟨j, hj⟩ := q.sent x hx
  rw [hi.unique hj.number]
  exact hj

/-- **C93.** A member reads every message that was ever sent under the name, with a number not before the announcement it took up
first and not used up in its present store — whatever the owner, the others and the member itself have restored. -/
theorem C93_read (hC : C.Lawful) (owner : SenderKeyName → M) (past : List (Room M)) (r : Room M) (h : BackupReach owner past r)
    (n : SenderKeyName) (m : M) (hm : m ≠ owner n) (d : SenderKeyDistributionMessage) (rest : List SenderKeyDistributionMessage)
    (hd : heardBy m n (r.own m) = d :: rest) (x : GroupSent) (hx : x ∈ sentUnder n r.log) (i : Nat) (hi : HasNumber x.bytes i)
    (hdi : d.iteration ≤ i) (hnew : ¬ ReadNumber m n (r.own m) i) :
    (GroupCipher.decrypt (r.store m) n x.bytes).result = .ok x.plaintext := by
  rcases h.state hC n with ⟨q, _⟩ | ⟨d0, q, _⟩
  · rw [q.sent] at hx; cases hx
  · obtain ⟨msg, hg, hmi⟩ := (q.message hx hi).genuine
    obtain ⟨hann, s, hs, hk, _⟩ := (q.member m hm).holds d rest hd
    have hg := hg.later_on q.it (q.announced d hann).1 (by omega)
    exact (keeps_new hC hs hk.toKeeps hg (by rw [hmi]; exact hnew)).1

/-- **C93.** The owner reads its own messages, if its store has forgotten them. -/
theorem C93_read_owner (hC : C.Lawful) (owner : SenderKeyName → M) (past : List (Room M)) (r : Room M) (h : BackupReach owner past r)
    (n : SenderKeyName) (x : GroupSent) (hx : x ∈ sentUnder n r.log) (i : Nat) (hi : HasNumber x.bytes i)
    (hnew : ¬ ReadNumber (owner n) n (r.own (owner n)) i) (hnew' : ¬ SentNumber n (r.own (owner n)) i) :
    (GroupCipher.decrypt (r.store (owner n)) n x.bytes).result = .ok x.plaintext := by
  rcases h.state hC n with ⟨q, _⟩ | ⟨d0, q, _⟩
  · rw [q.sent] at hx; cases hx
  · obtain ⟨msg, hg, hmi⟩ := (q.message hx hi).genuine
    obtain ⟨s, hs, hk⟩ := q.party.keeps
    refine (keeps_new hC hs hk hg ?_).1
    rw [hmi]
    rintro (q | q)
    · exact hnew q
    · exact hnew' q

/-- **C93.** A number that has been used up in the present store is used up: whatever carries it is refused, and nothing changes — even
if it is another message, which the owner sent with this number after a restore. -/
theorem C93_refused (hC : C.Lawful) (owner : SenderKeyName → M) (past : List (Room M)) (r : Room M) (h : BackupReach owner past r)
    (n : SenderKeyName) (m : M) (x : GroupSent) (hx : x ∈ sentUnder n r.log) (i : Nat) (hi : HasNumber x.bytes i)
    (hused : ReadNumber m n (r.own m) i ∨ SentNumber n (r.own m) i) :
    GroupCipher.decrypt (r.store m) n x.bytes = ⟨none, .error .duplicateMessage⟩ := by
  rcases h.state hC n with ⟨q, _⟩ | ⟨d0, q, _⟩
  · rw [q.sent] at hx; cases hx
  · obtain ⟨msg, hg, hmi⟩ := (q.message hx hi).genuine
    by_cases hm : m = owner n
    · subst hm
      obtain ⟨s, hs, hk⟩ := q.party.keeps
      exact keeps_again hs hk hg (by rw [hmi]; exact hused)
    · have hmem := q.member m hm
      rcases hused with hu | ⟨y, hy, _⟩
      · obtain ⟨p, hp, hpi⟩ := hu
        obtain ⟨j, d, rest, t1, t2, t3⟩ := hmem.later p hp
        have := t1.unique hpi
        subst this
        obtain ⟨hann, s, hs, hk, _⟩ := hmem.holds d rest t2
        have hg := hg.later_on q.it (q.announced d hann).1 (by omega)
        exact keeps_again hs hk.toKeeps hg (by rw [hmi]; exact ⟨p, hp, hpi⟩)
      · rw [hmem.quiet] at hy; cases hy

/-- **C93.** What is numbered before the announcement that a member's store took up first cannot be read. -/
theorem C93_before (hC : C.Lawful) (owner : SenderKeyName → M) (past : List (Room M)) (r : Room M) (h : BackupReach owner past r)
    (n : SenderKeyName) (m : M) (hm : m ≠ owner n) (d : SenderKeyDistributionMessage) (rest : List SenderKeyDistributionMessage)
    (hd : heardBy m n (r.own m) = d :: rest) (x : GroupSent) (hx : x ∈ sentUnder n r.log) (i : Nat) (hi : HasNumber x.bytes i)
    (hdi : i < d.iteration) : GroupCipher.decrypt (r.store m) n x.bytes = ⟨none, .error .duplicateMessage⟩ := by
  rcases h.state hC n with ⟨q, _⟩ | ⟨d0, q, _⟩
  · rw [q.sent] at hx; cases hx
  · obtain ⟨msg, hg, hmi⟩ := (q.message hx hi).genuine
    obtain ⟨hann, _⟩ := (q.member m hm).holds d rest hd
    exact (q.member m hm).early (y := x) hd (q.announced d hann).1 hg (by omega)

/-- **C93.** Before its store has an announcement, a member can read nothing. -/
theorem C93_unheard (hC : C.Lawful) (owner : SenderKeyName → M) (past : List (Room M)) (r : Room M) (h : BackupReach owner past r)
    (n : SenderKeyName) (m : M) (hm : m ≠ owner n) (hd : heardBy m n (r.own m) = []) (b : Bytes) :
    GroupCipher.decrypt (r.store m) n b = ⟨none, .error .noSession⟩ := by
  have hnil : (r.store m n).senderKeyStates = [] := by
    rcases h.state hC n with ⟨q, _⟩ | ⟨d0, q, _⟩
    · exact q.states m
    · exact (q.member m hm).unheard hd
  unfold GroupCipher.decrypt GroupCipher.decryptWithRecord
  rw [if_pos ((isEmpty_iff _).2 hnil)]
  rfl

/-- **C93.** Whatever anyone has ever read was sent by the owner, with this plaintext. -/
theorem C93_genuine (hC : C.Lawful) (owner : SenderKeyName → M) (past : List (Room M)) (r : Room M) (h : BackupReach owner past r)
    (n : SenderKeyName) (m : M) (p : Bytes × Bytes) (hp : p ∈ readBy m n r.log) :
    ∃ x ∈ sentUnder n r.log, SameBody p.1 x.bytes ∧ p.2 = x.plaintext := by
  rcases h.state hC n with ⟨q, _⟩ | ⟨d0, q, _⟩
  · rw [q.read m] at hp; cases hp
  · exact q.reads m p hp

/-- **C93.** In what a store remembers, each number occurs once: among the messages read, among those sent, and between the two. -/
theorem C93_once (hC : C.Lawful) (owner : SenderKeyName → M) (past : List (Room M)) (r : Room M) (h : BackupReach owner past r)
    (n : SenderKeyName) (m : M) :
    ((readBy m n (r.own m)).Pairwise fun p q => ∀ i, HasNumber p.1 i → ¬ HasNumber q.1 i) ∧
    ((sentUnder n (r.own m)).Pairwise fun x y => ∀ i, HasNumber x.bytes i → ¬ HasNumber y.bytes i) ∧
    ∀ i, ReadNumber m n (r.own m) i → ¬ SentNumber n (r.own m) i := by
  have hlogs := h.logs
  rcases h.state hC n with ⟨q, _⟩ | ⟨d0, q, _⟩
  · have h1 : sentUnder n (r.own m) = [] := nil_of_subset (sentUnder_subset (hlogs.own m)) q.sent
    have h2 : readBy m n (r.own m) = [] := nil_of_subset (readBy_subset (hlogs.own m)) (q.read m)
    refine ⟨by rw [h2]; exact .nil, by rw [h1]; exact .nil, ?_⟩
    rintro i ⟨p, hp, _⟩
    rw [h2] at hp; cases hp
  · by_cases hm : m = owner n
    · subst hm
      exact ⟨q.party.readOnce, q.party.sentOnce, q.party.apart⟩
    · have hmem := q.member m hm
      refine ⟨hmem.readOnce, by rw [hmem.quiet]; exact .nil, ?_⟩
      rintro i _ ⟨x, hx, _⟩
      rw [hmem.quiet] at hx; cases hx

/-- **C93.** Two messages with one number have been encrypted with one key and one initialization vector. -/
theorem C93_same_key (hC : C.Lawful) (owner : SenderKeyName → M) (past : List (Room M)) (r : Room M) (h : BackupReach owner past r)
    (n : SenderKeyName) (i : Nat) : ∃ id key iv, ∀ x ∈ sentUnder n r.log, HasNumber x.bytes i →
      ∃ ct sig, AES.encrypt key iv x.plaintext = .ok ct ∧ x.bytes = groupMessage id i ct ++ sig ∧ sig.length = 64 := by
  rcases h.state hC n with ⟨q, _⟩ | ⟨d0, q, _⟩
  · refine ⟨0, [], [], fun x hx => ?_⟩
    rw [q.sent] at hx; cases hx
  · refine ⟨d0.id, groupCipherKey (bSeed d0 i), groupIv (bSeed d0 i), fun x hx hi => ?_⟩
    obtain ⟨ct, sig, h1, h2, h3⟩ := (q.message hx hi).made
    exact ⟨ct, sig, h3, h1, h2⟩

/-- **C93.** So whoever sees two messages with one number sees whether they say the same. -/
theorem C93_equal (hC : C.Lawful) (owner : SenderKeyName → M) (past : List (Room M)) (r : Room M) (h : BackupReach owner past r)
    (n : SenderKeyName) (x y : GroupSent) (hx : x ∈ sentUnder n r.log) (hy : y ∈ sentUnder n r.log) (i : Nat)
    (hxi : HasNumber x.bytes i) (hyi : HasNumber y.bytes i) : SameBody x.bytes y.bytes ↔ x.plaintext = y.plaintext := by
  constructor
  · intro hb
    rcases h.state hC n with ⟨q, _⟩ | ⟨d0, q, _⟩
    · rw [q.sent] at hx; cases hx
    · obtain ⟨m1, g1, e1⟩ := (q.message hx hxi).genuine
      obtain ⟨m2, g2, e2⟩ := (q.message hy hyi).genuine
      obtain ⟨_, _, e3⟩ := hb.parse (q.message hx hxi).long g1.parses g2.parses
      have h1 := g1.opens
      have h2 := g2.opens
      rw [e1] at h1
      rw [e2, e3] at h2
      exact Except.ok.inj (h1.symm.trans h2)
  · intro hp
    obtain ⟨id, key, iv, hk⟩ := C93_same_key hC owner past r h n i
    obtain ⟨ct, sig, h1, h2, h3⟩ := hk x hx hxi
    obtain ⟨ct', sig', h4, h5, h6⟩ := hk y hy hyi
    rw [hp] at h1
    have := Except.ok.inj (h1.symm.trans h4)
    subst this
    exact ⟨_, sig, sig', h2, h5, h3, h6⟩

/-- **C93.** Restoring an earlier store makes a member read again what it has read since, if the announcement it had then allows it. -/
theorem C93_replay (hC : C.Lawful) (owner : SenderKeyName → M) (past : List (Room M)) (r : Room M) (h : BackupReach owner past r)
    (old : Room M) (hold : old ∈ past) (n : SenderKeyName) (m : M) (hm : m ≠ owner n) (hnone : ∀ n d, owner n = m → ¬ Announced n r.log d)
    (d : SenderKeyDistributionMessage) (rest : List SenderKeyDistributionMessage) (hd : heardBy m n (old.own m) = d :: rest)
    (x : GroupSent) (hx : x ∈ sentUnder n r.log) (i : Nat) (hi : HasNumber x.bytes i) (hdi : d.iteration ≤ i)
    (hnew : ¬ ReadNumber m n (old.own m) i) :
    (GroupCipher.decrypt ((r.restore m old).store m) n x.bytes).result = .ok x.plaintext := by
  have hr := BackupReach.restore m old h hold (fun n d q1 q2 => absurd q2 (hnone n d q1))
  have hown : (r.restore m old).own m = old.own m := if_pos rfl
  exact C93_read hC owner _ _ hr n m hm d rest (by rw [hown]; exact hd) x hx i hi hdi (by rw [hown]; exact hnew)

end

/-! ## Non-vacuity -/

section
attribute [local instance] toy
open Example Spec

/-- Things that happen: a call, or going back to the moment after the first `k` things. -/
inductive Example.GroupThing
  | call (m : Nat) (c : GroupCall)
  | restore (m : Nat) (k : Nat)

/-- The rooms, the latest first. -/
def Example.groupRooms : List GroupThing → List (Room Nat) × Room Nat
  | [] => ([], Room.start)
  | t :: ts =>
    let (past, r) := groupRooms ts
    match t with
    | .call m c => (r :: past, r.call m c)
    | .restore m k => (r :: past, r.restore m ((past.reverse[k]?).getD Room.start))

/-- The owner, member 0, announces its key and sends a message; member 1 reads it; the owner goes back to the moment before that
message, and sends another. -/
def Example.groupThings : List GroupThing :=
  [.call 0 (.encrypt grp [9, 9] grpSig), .restore 0 2, .call 1 (.decrypt grp (grpMsg 0)), .call 0 (.encrypt grp [1] grpSig),
   .call 1 (.process grp grpDist), .call 0 (.create grp grpRand)]

theorem Example.announced_room {log : RoomLog Nat} {n : SenderKeyName} {d : SenderKeyDistributionMessage} (i : Nat)
    (h : (match log[i]? with
      | some ⟨_, .create n' _, .ok (.distribution d0)⟩ => decide (n' = n ∧
          (SenderKeyDistributionMessage.parse d0.serialized).toOption = some d)
      | _ => false) = true) : Announced n log d := by
  cases he : log[i]? with
  | none => rw [he] at h; cases h
  | some e =>
    rw [he] at h
    have hmem := List.mem_of_getElem? he
    obtain ⟨m, c, r⟩ := e
    cases c with
    | create n' rnd =>
      cases r with
      | error e => cases h
      | ok r =>
        cases r with
        | distribution d0 =>
          obtain ⟨rfl, h1⟩ := of_decide_eq_true h
          refine ⟨_, hmem, rnd, d0, rfl, rfl, ?_⟩
          cases hp : SenderKeyDistributionMessage.parse d0.serialized with
          | error e => rw [hp] at h1; cases h1
          | ok x => rw [hp] at h1; cases h1; rfl
        | bytes b => cases h
        | done => cases h
    | _ => cases h

theorem Example.announced_only {log : RoomLog Nat} (n : SenderKeyName)
    (h : log.all (fun e => match e.call with | .create n' _ => decide (n' = grp) | _ => true) = true) {d : SenderKeyDistributionMessage}
    (ha : Announced n log d) : n = grp := by
  obtain ⟨e, he, rnd, d0, h1, _⟩ := ha
  have := List.all_eq_true.1 h e he
  rw [h1] at this
  exact of_decide_eq_true this

theorem Example.group_restored :
    BackupReach roomOwner (groupRooms (groupThings.drop 1)).1 (groupRooms (groupThings.drop 1)).2 := by
  refine .restore 0 _ (.call 1 (.decrypt grp (grpMsg 0)) (.call 0 (.encrypt grp [1] grpSig)
    (.call 1 (.process grp grpDist) (.call 0 (.create grp grpRand) .start ?_) ?_) ?_) ?_) ?_ ?_
  · exact ⟨rfl, by decide +kernel, by decide +kernel⟩
  · exact announced_room 0 (by decide +kernel)
  · exact ⟨by decide +kernel, by decide +kernel⟩
  · intro x _
    have hmem : (⟨grp, [1], grpMsg 0⟩ : GroupSent) ∈ sentUnder grp (groupRooms (groupThings.drop 3)).2.log := by decide +kernel
    exact ⟨_, hmem, sameBody_refl (by decide +kernel)⟩
  · exact List.mem_of_getElem? (i := 1) rfl
  · intro n d _ ha
    have := announced_only n (by decide +kernel) ha
    subst this
    exact ⟨grpDist, announced_room 0 (by decide +kernel)⟩

theorem Example.group_reach : BackupReach roomOwner (groupRooms groupThings).1 (groupRooms groupThings).2 :=
  .call 0 (.encrypt grp [9, 9] grpSig) group_restored ⟨by decide +kernel, by decide +kernel⟩

/-- The message sent after the restore. -/
def Example.groupSecond : Bytes := ((sentUnder grp (groupRooms groupThings).2.log)[1]?.map (·.bytes)).getD []

theorem Example.hasNumber_of {b : Bytes} {i : Nat} (h : (SenderKeyMessage.parse b).toOption.map (·.iteration) = some i) : HasNumber b i := by
  cases hp : SenderKeyMessage.parse b with
  | error e => rw [hp] at h; cases h
  | ok m => rw [hp] at h; exact ⟨m, hp, Option.some.inj h⟩

/-- `C93_number`, `C93_same_key`: two different messages have been sent with number 0; the owner remembers only the second. -/
example : (sentUnder grp (groupRooms groupThings).2.log).map (·.plaintext) = [[1], [9, 9]] ∧
    (sentUnder grp ((groupRooms groupThings).2.own 0)).map (·.plaintext) = [[9, 9]] ∧
    HasNumber (grpMsg 0) 0 ∧ HasNumber groupSecond 0 :=
  ⟨by decide +kernel, by decide +kernel, hasNumber_of (by decide +kernel), hasNumber_of (by decide +kernel)⟩

/-- `C93_refused`: member 1 has read the first message and cannot read the second; nor can the owner read the first. -/
example : GroupCipher.decrypt ((groupRooms groupThings).2.store 1) grp groupSecond = ⟨none, .error .duplicateMessage⟩ ∧
    GroupCipher.decrypt ((groupRooms groupThings).2.store 0) grp (grpMsg 0) = ⟨none, .error .duplicateMessage⟩ := by
  constructor
  · have hx : (⟨grp, [9, 9], groupSecond⟩ : GroupSent) ∈ sentUnder grp (groupRooms groupThings).2.log := by decide +kernel
    refine C93_refused toy_lawful roomOwner _ _ group_reach grp 1 ⟨grp, [9, 9], groupSecond⟩ hx 0 (hasNumber_of (by decide +kernel)) (.inl ?_)
    have hr : readBy 1 grp ((groupRooms groupThings).2.own 1) = [(grpMsg 0, [1])] := by decide +kernel
    exact ⟨_, by rw [hr]; exact List.mem_singleton.2 rfl, hasNumber_of (by decide +kernel)⟩
  · have hx : (⟨grp, [1], grpMsg 0⟩ : GroupSent) ∈ sentUnder grp (groupRooms groupThings).2.log := by decide +kernel
    refine C93_refused toy_lawful roomOwner _ _ group_reach grp 0 ⟨grp, [1], grpMsg 0⟩ hx 0 (hasNumber_of (by decide +kernel)) (.inr ?_)
    have hs : (⟨grp, [9, 9], groupSecond⟩ : GroupSent) ∈ sentUnder grp ((groupRooms groupThings).2.own 0) := by decide +kernel
    exact ⟨_, hs, hasNumber_of (by decide +kernel)⟩

/-- `C93_read`, `C93_replay`: if member 1 goes back to the moment before it read the first message, it reads the second instead. -/
example : (GroupCipher.decrypt (((groupRooms groupThings).2.restore 1 ((groupRooms (groupThings.drop 3)).2)).store 1) grp groupSecond).result
    = .ok [9, 9] := by
  have hx : (⟨grp, [9, 9], groupSecond⟩ : GroupSent) ∈ sentUnder grp (groupRooms groupThings).2.log := by decide +kernel
  refine C93_replay toy_lawful roomOwner _ _ group_reach _ (List.mem_of_getElem? (i := 2) rfl) grp 1 (by decide) (fun n d q => by cases q)
    grpDist [] (by decide +kernel) ⟨grp, [9, 9], groupSecond⟩ hx 0 (hasNumber_of (by decide +kernel)) (by decide +kernel) ?_
  have hr : readBy 1 grp ((groupRooms (groupThings.drop 3)).2.own 1) = [] := by decide +kernel
  rintro ⟨p, hp, _⟩
  have hp : p ∈ readBy 1 grp ((groupRooms (groupThings.drop 3)).2.own 1) := hp
  rw [hr] at hp
  cases hp

/-- `C93_read_owner`: right after the restore the owner can read its own message. -/
example : (GroupCipher.decrypt ((groupRooms (groupThings.drop 1)).2.store 0) grp (grpMsg 0)).result = .ok [1] := by
  have hx : (⟨grp, [1], grpMsg 0⟩ : GroupSent) ∈ sentUnder grp (groupRooms (groupThings.drop 1)).2.log := by decide +kernel
  refine C93_read_owner toy_lawful roomOwner _ _ group_restored grp ⟨grp, [1], grpMsg 0⟩ hx 0 (hasNumber_of (by decide +kernel)) ?_ ?_
  · have hr : readBy 0 grp ((groupRooms (groupThings.drop 1)).2.own 0) = [] := by decide +kernel
    rintro ⟨p, hp, _⟩
    have hp : p ∈ readBy 0 grp ((groupRooms (groupThings.drop 1)).2.own 0) := hp
    rw [hr] at hp
    cases hp
  · have hr : sentUnder grp ((groupRooms (groupThings.drop 1)).2.own 0) = [] := by decide +kernel
    rintro ⟨p, hp, _⟩
    have hp : p ∈ sentUnder grp ((groupRooms (groupThings.drop 1)).2.own 0) := hp
    rw [hr] at hp
    cases hp

end
end Axolotl
