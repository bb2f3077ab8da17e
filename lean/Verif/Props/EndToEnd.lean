import Verif.Spec.EndToEnd
import Verif.Props.Society
import Verif.Props.ActiveSecrecy
import Verif.Props.GroupForge
import Verif.Props.GroupSecrecy

/-! # C100: conversations and groups against one attacker who computes and steals -/

namespace Axolotl
section
variable [C : Crypto] {P : Type} [DecidableEq P]
open Spec

theorem sysStep_imp {A B : Chat P → Net → Bool → Nat → Bytes → Prop} {s s' : System P} {e : SysEvent P} (h : SysStepBy A s e s')
    (hAB : ∀ t ∈ s.chats, ∀ b type bytes, A t (t.net s.world) b type bytes → B t (t.net s.world) b type bytes) : SysStepBy B s e s' := by
  cases h with
  | start h1 h2 h3 h4 h5 => exact .start h1 h2 h3 h4 h5
  | send h1 h2 h3 h4 => exact .send h1 h2 h3 h4
  | deliver h1 h2 h3 h4 h5 h6 => exact .deliver h1 h2 h3 h4 h5 h6
  | attack h1 h2 h3 h4 h5 h6 h7 h8 => exact .attack h1 (hAB _ (List.mem_of_getElem? h1) _ _ _ h2) h3 h4 h5 h6 h7 h8
  | other h => exact .other h

theorem crafts_attack (hC : C.Lawful) {s : System P} (h : SysReach s) {t : Chat P} (ht : t ∈ s.chats) {b : Bool} {type : Nat} {bytes : Bytes}
    (hc : Crafts t (t.net s.world) b type bytes) : Attack t.cv (t.net s.world) b type bytes := by
  obtain ⟨n0, h1, h2⟩ := C87_each hC h ht
  obtain ⟨key, top, spkId, l, k1, k2, k3⟩ := hc
  exact C95_attack hC h1 h2 k1 k2 k3

/-- **C100, many conversations.** That nobody forges a MAC, which C87 assumes, follows if the attacker computes what they send; and
such an attacker can do all that the one of C87 can. -/
theorem C100_system (hC : C.Lawful) (s : System P) : SysReachBy Crafts s ↔ SysReach s := by
  constructor
  · intro h
    induction h with
    | init => exact .init
    | step _ hs ih => exact .step ih (sysStep_imp hs fun t ht b type bytes hc => crafts_attack hC ih ht hc)
  · intro h
    induction h with
    | init => exact .init
    | step h hs ih =>
      refine .step ih (sysStep_imp hs fun t ht b type bytes hc => ?_)
      obtain ⟨n0, h1, h2⟩ := C87_each hC h ht
      exact attack_outside hC h1 h2 hc

theorem craft_society_room (hC : C.Lawful) {owner : SenderKeyName → P} {enc : SenderKeyName → Bytes → Bytes} {a : Society P}
    (h : SocietyReach owner enc a) {m : P} {c : GroupCall} (hc : CraftSocietyAllowed owner enc a m c) :
    SocietyAllowed owner enc a m c (c.run (a.groups m)).result := by
  cases c with
  | encrypt n pt rand => exact hc
  | create n rnd => exact hc
  | process n d => exact hc
  | decrypt n b =>
    intro x hx
    cases hr : (GroupCipher.decrypt (a.groups m) n b).result with
    | ok pt => exact C96_accepted hC owner a.groups a.log (C88_society hC h).2 n m b pt hr hc
    | error e =>
      have hx : (GroupCall.mapG GroupReply.bytes (GroupCipher.decrypt (a.groups m) n b)).result = .ok x := hx
      unfold GroupCall.mapG at hx
      simp only [hr] at hx
      cases hx

/-- **C100, conversations and groups.** The same for a society: whatever comes about with an attacker who computes, in conversations
and in groups, is as C88 says; so all that is proved of it there holds. -/
theorem C100_society (hC : C.Lawful) {owner : SenderKeyName → P} {enc : SenderKeyName → Bytes → Bytes} {a : Society P}
    (h : CSocietyReach owner enc a) : SocietyReach owner enc a := by
  induction h with
  | init => exact .init
  | step _ hs ih =>
    cases hs with
    | talk h1 h2 => exact .step ih (.talk (sysStep_imp h1 fun t ht b type bytes hc => crafts_attack hC (society_inv hC ih).sys ht hc) h2)
    | group m c hc => exact .step ih (.group m c (craft_society_room hC ih hc))

/-- **C100.** And nothing is lost: every event of C88 can happen, but for group messages that are refused anyway. -/
theorem C100_possible (hC : C.Lawful) {owner : SenderKeyName → P} {enc : SenderKeyName → Bytes → Bytes} {a a' : Society P}
    (h : SocietyReach owner enc a) (hs : SocietyStep owner enc a a')
    (hok : ∀ m n b e, a'.log ≠ a.log ++ [⟨m, .decrypt n b, .error e⟩]) : CSocietyStep owner enc a a' := by
  cases hs with
  | talk h1 h2 =>
    refine .talk (sysStep_imp h1 fun t ht b type bytes hc => ?_) h2
    obtain ⟨n0, k1, k2⟩ := C87_each hC (society_inv hC h).sys ht
    exact attack_outside hC k1 k2 hc
  | group m c hc =>
    refine .group m c ?_
    cases c with
    | encrypt n pt rand => exact hc
    | create n rnd => exact hc
    | process n d => exact hc
    | decrypt n b =>
      cases hr : ((GroupCall.decrypt n b).run (a.groups m)).result with
      | error e => exact absurd (by rw [hr]) (hok m n b e)
      | ok x =>
        obtain ⟨y, hy, hb⟩ := hc x hr
        exact C96_replay hC owner a.groups a.log (society_inv hC h).room n m y hy b hb

/-- **C100, authenticity.** What a member of a group reads was sent under this name by its owner, with this plaintext, though the
attacker had every message in their hands, of conversations and groups, and could compute with what they had. -/
theorem C100_genuine (hC : C.Lawful) {owner : SenderKeyName → P} {enc : SenderKeyName → Bytes → Bytes} {a : Society P}
    (h : CSocietyReach owner enc a) (n : SenderKeyName) (m : P) :
    (∀ p ∈ readBy m n a.log, m ≠ owner n ∧ ∃ x ∈ sentUnder n a.log, SameBody p.1 x.bytes ∧ p.2 = x.plaintext) ∧
    (readBy m n a.log).Pairwise fun p q => ¬ SameBody p.1 q.1 :=
  C88_genuine hC (C100_society hC h) n m

/-- The names that fit a conversation, with which it is known what can be read of it. -/
structure NamedFor (world : P → World) (names : Chat P → (KeyName → Bytes) × Nat) (t : Chat P) : Prop where
  named : ∃ spkId, Named (names t).1 (names t).2 spkId t.cv (t.net world)
  opened : ∀ loot : Loot P, (∀ b, ¬ loot.keys t (.base b)) → ¬ loot.keys t .oneTime →
    ∀ (b : Bool) (i : Nat) (c : Ciphertext) (pt : Bytes), (t.sent (!b))[i]? = some (c, pt) →
      (ChatOpened (names t).1 (names t).2 world loot t (!b) i ↔
        loot.texts t (!b) i ∨ (loot.sessions (t.party b) ∧ StillOpens world t b i c))

theorem names_exist (hC : C.Lawful) {s : System P} (h : SysReach s) :
    ∃ names : Chat P → (KeyName → Bytes) × Nat, ∀ t ∈ s.chats, NamedFor s.world names t := by
  have : ∀ t : Chat P, ∃ q : (KeyName → Bytes) × Nat, t ∈ s.chats → NamedFor s.world (fun _ => q) t := by
    intro t
    by_cases ht : t ∈ s.chats
    · obtain ⟨n0, h1, h2⟩ := C87_each hC h ht
      obtain ⟨key, top, spkId, _, k2, k3⟩ := C98_forward hC h1 h2
      refine ⟨(key, top), fun _ => ⟨⟨spkId, k2⟩, fun loot l1 l2 b i c pt hi => ?_⟩⟩
      by_cases htext : loot.texts t (!b) i
      · exact ⟨fun _ => .inl htext, fun _ => .has (.text htext)⟩
      · rw [show ChatOpened key top s.world loot t (!b) i ↔ _ from
          k3 _ (loot.keys t) (loot.texts t) (fun b h => h.2) l1 l2 b i c pt hi htext]
        constructor
        · rintro ⟨⟨q1, q2⟩, q3⟩
          exact .inr ⟨q1, q2, q3⟩
        · rintro (q | ⟨q1, q2, q3⟩)
          · exact absurd q htext
          · exact ⟨⟨q1, q2⟩, q3⟩
    · exact ⟨(fun _ => [], 0), fun q => absurd q ht⟩
  obtain ⟨f, hf⟩ := Classical.axiomOfChoice this
  exact ⟨f, fun t ht => ⟨(hf t ht).named, (hf t ht).opened⟩⟩

/-- **C100, secrecy.** Who can read a group message.  The attacker has had a hand in everything, sees all messages, and reads at some
moment the session states and sender-key records of anybody and gets any private keys but the base keys and one-time prekeys, and any
plaintexts.  Then they can read a group message whose plaintext they were not given exactly if a record they have opens it, or if in
some conversation there is an announcement of the name, not younger than the message, whose plaintext they were given or which waits
for a party whose session states they have. -/
theorem C100_exact (hC : C.Lawful) {owner : SenderKeyName → P} {enc : SenderKeyName → Bytes → Bytes} {a : Society P}
    (h : CSocietyReach owner enc a) :
    ∃ names : Chat P → (KeyName → Bytes) × Nat,
      (∀ t ∈ a.sys.chats, ∃ spkId, Named (names t).1 (names t).2 spkId t.cv (t.net a.sys.world)) ∧
      ∀ loot : Loot P, (∀ t ∈ a.sys.chats, (∀ b, ¬ loot.keys t (.base b)) ∧ ¬ loot.keys t .oneTime) →
        ∀ (n : SenderKeyName) (headers : Nat → Bytes) (i : Nat) (x : GroupSent), (sentUnder n a.log)[i]? = some x → ¬ loot.said i →
          (GroupOpened names enc headers loot a n i ↔
            (∃ m, loot.records m ∧ Exposes owner n a.log m i x.bytes) ∨
            ∃ t ∈ a.sys.chats, ∃ (b : Bool) (j : Nat) (c : Ciphertext) (pt : Bytes) (k : Nat),
              (t.sent (!b))[j]? = some (c, pt) ∧ AnnouncesKey enc n a.log k pt ∧ k ≤ i ∧
              (loot.texts t (!b) j ∨ (loot.sessions (t.party b) ∧ StillOpens a.sys.world t b j c))) := by
  have hs := society_inv hC (C100_society hC h)
  obtain ⟨names, hn⟩ := names_exist hC hs.sys
  refine ⟨names, fun t ht => (hn t ht).named, fun loot hl n headers i x hx hsaid => ?_⟩
  have hne : sentUnder n a.log ≠ [] := by
    intro e
    rw [e] at hx
    cases hx
  obtain ⟨d, hd⟩ := C90_first hC owner a.groups a.log hs.room n (.inl hne)
  have hroom := hs.room
  have key := C90_theft hC owner a.groups a.groups a.log [] hs.room (by rw [List.append_nil]; exact hs.room) n loot.records
    (fun k => ∃ t ∈ a.sys.chats, ∃ (b : Bool) (j : Nat) (c : Ciphertext) (pt : Bytes),
      (t.sent b)[j]? = some (c, pt) ∧ AnnouncesKey enc n a.log k pt ∧ ChatOpened (names t).1 (names t).2 a.sys.world loot t b j)
    loot.said headers d hd i x (by rw [List.append_nil]; exact hx) hsaid
  rw [List.append_nil] at key
  unfold GroupOpened
  rw [key]
  constructor
  · rintro (⟨k, hk, t, ht, b, j, c, pt, q1, q2, q3⟩ | q)
    · obtain ⟨b, rfl⟩ : ∃ b', b = !b' := ⟨!b, by simp⟩
      exact .inr ⟨t, ht, b, j, c, pt, k, q1, q2, hk, ((hn t ht).opened loot (hl t ht).1 (hl t ht).2 b j c pt q1).1 q3⟩
    · exact .inl q
  · rintro (q | ⟨t, ht, b, j, c, pt, k, q1, q2, hk, q3⟩)
    · exact .inr q
    · exact .inl ⟨k, hk, t, ht, !b, j, c, pt, q1, q2, ((hn t ht).opened loot (hl t ht).1 (hl t ht).2 b j c pt q1).2 q3⟩

/-- **C100, what an announcement gives.** What is announced when `k` messages have been sent is the chain from message `k` on. -/
theorem C100_announcement (hC : C.Lawful) {owner : SenderKeyName → P} {enc : SenderKeyName → Bytes → Bytes} {a : Society P}
    (h : CSocietyReach owner enc a) (n : SenderKeyName) (k : Nat) (pt : Bytes) (ha : AnnouncesKey enc n a.log k pt) :
    ∃ x, pt = enc n x ∧ ∀ d, SenderKeyDistributionMessage.parse x = .ok d → d.iteration = k ∧ k ≤ (sentUnder n a.log).length := by
  obtain ⟨pre, e, post, rnd, d0, h1, h2, h3, h4, h5⟩ := ha
  refine ⟨d0.serialized, h4, fun d hd => ?_⟩
  have hk : AnnouncedAt n a.log k d := ⟨pre, e, post, rnd, d0, h1, h2, h3, hd, h5⟩
  obtain ⟨_, hr⟩ := (society_inv hC (C100_society hC h)).room.running hC hk
  exact ⟨(hr.announced k d hk).1.it, (hr.announced k d hk).2⟩

/-- **C100, delivered announcements do no harm.** If all announcements of the name that were sent in conversations have arrived where
session states are stolen, and no plaintexts of theirs were given away, only the sender-key records matter. -/
theorem C100_delivered (hC : C.Lawful) {owner : SenderKeyName → P} {enc : SenderKeyName → Bytes → Bytes} {a : Society P}
    (h : CSocietyReach owner enc a) :
    ∃ names : Chat P → (KeyName → Bytes) × Nat,
      (∀ t ∈ a.sys.chats, ∃ spkId, Named (names t).1 (names t).2 spkId t.cv (t.net a.sys.world)) ∧
      ∀ loot : Loot P, (∀ t ∈ a.sys.chats, (∀ b, ¬ loot.keys t (.base b)) ∧ ¬ loot.keys t .oneTime) →
        ∀ (n : SenderKeyName) (headers : Nat → Bytes),
          (∀ t ∈ a.sys.chats, ∀ (b : Bool) (j : Nat) (c : Ciphertext) (pt : Bytes) (k : Nat), (t.sent (!b))[j]? = some (c, pt) →
            AnnouncesKey enc n a.log k pt → ¬ loot.texts t (!b) j ∧ (loot.sessions (t.party b) → j ∈ t.accepted b)) →
          ∀ (i : Nat) (x : GroupSent), (sentUnder n a.log)[i]? = some x → ¬ loot.said i →
            (GroupOpened names enc headers loot a n i ↔ ∃ m, loot.records m ∧ Exposes owner n a.log m i x.bytes) := by
  obtain ⟨names, h1, h2⟩ := C100_exact hC h
  refine ⟨names, h1, fun loot hl n headers hall i x hx hsaid => ?_⟩
  rw [h2 loot hl n headers i x hx hsaid]
  constructor
  · rintro (q | ⟨t, ht, b, j, c, pt, k, q1, q2, _, q3 | ⟨q3, q4⟩⟩)
    · exact q
    · exact absurd q3 (hall t ht b j c pt k q1 q2).1
    · exact absurd ((hall t ht b j c pt k q1 q2).2 q3) q4.2.1
  · exact .inl

/-- **C100, the network alone.** Whoever has nothing but messages, even all of them, and long-term private keys, reads no group message
at all. -/
theorem C100_nobody (hC : C.Lawful) {owner : SenderKeyName → P} {enc : SenderKeyName → Bytes → Bytes} {a : Society P}
    (h : CSocietyReach owner enc a) :
    ∃ names : Chat P → (KeyName → Bytes) × Nat,
      (∀ t ∈ a.sys.chats, ∃ spkId, Named (names t).1 (names t).2 spkId t.cv (t.net a.sys.world)) ∧
      ∀ loot : Loot P, (∀ t ∈ a.sys.chats, (∀ b, ¬ loot.keys t (.base b)) ∧ ¬ loot.keys t .oneTime) →
        (∀ p, ¬ loot.sessions p) → (∀ p, ¬ loot.records p) → (∀ t b j, ¬ loot.texts t b j) → (∀ i, ¬ loot.said i) →
        ∀ (n : SenderKeyName) (headers : Nat → Bytes) (i : Nat), i < (sentUnder n a.log).length →
          ¬ GroupOpened names enc headers loot a n i := by
  obtain ⟨names, h1, h2⟩ := C100_exact hC h
  refine ⟨names, h1, fun loot hl l1 l2 l3 l4 n headers i hi => ?_⟩
  rw [h2 loot hl n headers i _ (List.getElem?_eq_getElem hi) (l4 i)]
  rintro (⟨m, q, _⟩ | ⟨t, ht, b, j, c, pt, k, _, _, _, q | ⟨q, _⟩⟩)
  · exact l2 m q
  · exact l3 _ _ _ q
  · exact l1 _ q

end

/-! ## Non-vacuity: the society of C88, with an announcement that waits -/

section
attribute [local instance] toy
open Example Spec

/-- After Bob has got the announcement Alice sends it again, and then a message to the group. -/
def soc6 : Option (Society (Fin 3)) := soc2.bind fun a => socSend a 0 true (1 :: grpDist.serialized)
def soc7 (a : Society (Fin 3)) : Society (Fin 3) := socCall a 0 (.encrypt grp [1] grpSig)

def socCheck7 (a : Society (Fin 3)) : Bool :=
  sentUnder grp (soc7 a).log == [⟨grp, [1], grpMsg 0⟩] &&
  match a.sys.chats[0]? with
  | none => false
  | some t => match (t.sent true)[1]? with
    | none => false
    | some (c, pt) => decide (t.party false = 1) && pt == 1 :: grpDist.serialized && !(t.accepted false).isEmpty &&
        !(t.accepted false).contains 1 && (seenKeys (t.cv.start false) ((t.net a.sys.world).log false)).contains (header c).1 &&
        decide ((seenKeys (t.cv.start false) ((t.net a.sys.world).log false)).length ≤ 5)

theorem soc_check7 : soc6.any socCheck7 = true := by decide +kernel

theorem soc2_log {a : Society (Fin 3)} (h : soc2 = some a) : a.log = soc1.log := by
  unfold soc2 at h
  obtain ⟨a1, h1, h2⟩ := Option.bind_eq_some_iff.1 h
  obtain ⟨s, _, rfl⟩ := Option.map_eq_some_iff.1 h1
  unfold socDeliver at h2
  split at h2
  · cases h2
  · split at h2
    · cases h2
    · obtain ⟨s', _, rfl⟩ := Option.map_eq_some_iff.1 h2
      rfl

theorem soc_reach7 {a : Society (Fin 3)} (h : soc6 = some a) : CSocietyReach socOwner socEnc (soc7 a) ∧ a.log = soc1.log := by
  have hp : ∀ {a a' : Society (Fin 3)}, SocietyReach socOwner socEnc a → CSocietyReach socOwner socEnc a →
      SocietyStep socOwner socEnc a a' → (∀ m n b e, a'.log ≠ a.log ++ [⟨m, .decrypt n b, .error e⟩]) →
      SocietyReach socOwner socEnc a' ∧ CSocietyReach socOwner socEnc a' :=
    fun h1 h2 h3 h4 => ⟨.step h1 h3, .step h2 (C100_possible toy_lawful h1 h3 h4)⟩
  have same : ∀ (log : RoomLog (Fin 3)) m n b e, log ≠ log ++ [⟨m, .decrypt n b, .error e⟩] := by
    intro log m n b e q
    have := congrArg List.length q
    rw [List.length_append] at this
    simp at this
  have r0 : SocietyReach socOwner socEnc soc0 ∧ CSocietyReach socOwner socEnc soc0 := by
    have h0 : SocietyStep socOwner socEnc ⟨sys0, fun _ => GroupStore.empty, [], fun _ => []⟩ _ := .talk (e := .unseen) sys_start1 trivial
    have h1 : SocietyStep socOwner socEnc ⟨sys1, fun _ => GroupStore.empty, [], fun _ => []⟩ _ := .talk (e := .unseen) sys_start2 trivial
    have k := hp (.init (world := sys0.world)) (.init (world := sys0.world)) h0 (same [])
    exact hp k.1 k.2 h1 (same [])
  have r1 : SocietyReach socOwner socEnc soc1 ∧ CSocietyReach socOwner socEnc soc1 := by
    refine hp r0.1 r0.2 (.group 0 (.create grp grpRand) ⟨rfl, by decide +kernel, by decide +kernel⟩) ?_
    intro m n b e q
    have q : soc0.log ++ [_] = soc0.log ++ [_] := q
    injection List.append_cancel_left q with q
    injection q with _ q
    cases q
  unfold soc6 at h
  obtain ⟨a2, h2, h6⟩ := Option.bind_eq_some_iff.1 h
  have l2 := soc2_log h2
  have r2 : SocietyReach socOwner socEnc a2 ∧ CSocietyReach socOwner socEnc a2 := by
    unfold soc2 at h2
    obtain ⟨a1, k1, k2⟩ := Option.bind_eq_some_iff.1 h2
    have s1 := socSend_step (by decide +kernel) k1
    have e1 : a1.log = soc1.log := by
      obtain ⟨s, _, rfl⟩ := Option.map_eq_some_iff.1 k1
      rfl
    have r := hp r1.1 r1.2 s1 (by rw [e1]; exact same _)
    exact hp r.1 r.2 (socDeliver_step k2) (by rw [l2, e1]; exact same _)
  have s6 : SocietyStep socOwner socEnc a2 a := socSend_step (by rw [l2]; decide +kernel) h6
  have e6 : a.log = a2.log := by
    obtain ⟨s, _, rfl⟩ := Option.map_eq_some_iff.1 h6
    rfl
  have r6 := hp r2.1 r2.2 s6 (by rw [e6]; exact same _)
  refine ⟨(hp r6.1 r6.2 (.group 0 (.encrypt grp [1] grpSig) ⟨by decide +kernel, by decide +kernel⟩) ?_).2, e6.trans l2⟩
  intro m n b e q
  have q : a.log ++ [_] = a.log ++ [_] := q
  injection List.append_cancel_left q with q
  injection q with _ q
  cases q

/-- The hypotheses of C100 are met, both sides of `C100_exact` occur: a second copy of the announcement waits for Bob, so whoever has
Bob's session states reads the group message, though Bob has not taken up any announcement; whoever has nothing does not. -/
example : ∃ (a : Society (Fin 3)) (names : Chat (Fin 3) → (KeyName → Bytes) × Nat), CSocietyReach socOwner socEnc a ∧
    GroupOpened names socEnc (fun _ => []) ⟨(· = 1), fun _ => False, fun _ _ => False, fun _ _ _ => False, fun _ => False⟩ a grp 0 ∧
    ¬ GroupOpened names socEnc (fun _ => []) ⟨fun _ => False, fun _ => False, fun _ _ => False, fun _ _ _ => False, fun _ => False⟩
      a grp 0 := by
  have h := soc_check7
  cases hr : soc6 with
  | none => rw [hr] at h; cases h
  | some a =>
    rw [hr] at h
    have h : socCheck7 a = true := h
    obtain ⟨hreach, hlog⟩ := soc_reach7 hr
    obtain ⟨names, _, hx⟩ := C100_exact toy_lawful hreach
    unfold socCheck7 at h
    split at h
    · simp at h
    · rename_i t ht
      split at h
      · simp at h
      · rename_i c pt hc
        simp only [Bool.and_eq_true, beq_iff_eq, decide_eq_true_eq, Bool.not_eq_true', List.contains_eq_mem,
          decide_eq_false_iff_not] at h
        obtain ⟨h1, ⟨⟨⟨⟨h2, h3⟩, h4⟩, h5⟩, h6⟩, h7⟩ := h
        have hs : (sentUnder grp (soc7 a).log)[0]? = some ⟨grp, [1], grpMsg 0⟩ := by rw [h1]; rfl
        refine ⟨soc7 a, names, hreach, (hx _ (fun _ _ => ⟨fun _ q => q, fun q => q⟩) grp _ 0 _ hs (fun q => q)).2 ?_, fun q => ?_⟩
        · refine .inr ⟨t, List.mem_of_getElem? ht, false, 1, c, pt, 0, hc, ?_, Nat.le_refl _, .inr ⟨h2, ?_, h5, fun _ => ?_⟩⟩
          · refine ⟨[], ⟨0, .create grp grpRand, ((GroupCall.create grp grpRand).run GroupStore.empty).result⟩,
              [⟨0, .encrypt grp [1] grpSig, ((GroupCall.encrypt grp [1] grpSig).run (a.groups 0)).result⟩], grpRand, grpDist, ?_, rfl, ?_, ?_, rfl⟩
            · show a.log ++ _ = _
              rw [hlog]; rfl
            · decide +kernel
            · rw [h3]; rfl
          · intro _ _ e
            have e : t.accepted false = [] := e
            rw [e] at h4
            cases h4
          · show _ ∈ (seenKeys (t.cv.start false) ((t.net a.sys.world).log false)).drop
              ((seenKeys (t.cv.start false) ((t.net a.sys.world).log false)).length - 5)
            rw [Nat.sub_eq_zero_of_le h7]
            exact h6
        · rcases (hx _ (fun _ _ => ⟨fun _ q => q, fun q => q⟩) grp _ 0 _ hs (fun q => q)).1 q with
            ⟨_, q, _⟩ | ⟨_, _, _, _, _, _, _, _, _, _, q | ⟨q, _⟩⟩
          · exact q
          · exact q
          · exact q

end
end Axolotl
