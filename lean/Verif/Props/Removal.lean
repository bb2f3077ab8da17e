import Verif.Spec.Removal
import Verif.Props.EndToEnd
import Verif.Props.RenewalForge

/-! # C105: renewing the key of a group in conversations, and removing members -/

namespace Axolotl
section
variable [C : Crypto] {P : Type} [DecidableEq P]
open Spec

structure RemovalInv (owner : SenderKeyName → P) (enc : SenderKeyName → Bytes → Bytes) (safe : SenderKeyName → Nat → Prop)
    (a : Society P) : Prop where
  sys : SysReach a.sys
  room : RenewCraftReach owner safe a.groups a.log
  sent : ∀ t ∈ a.sys.chats, ∀ b c n x, (c, enc n x) ∈ t.sent b → owner n = t.party b → CreatedFor n a.log x
  inbox : ∀ m p pt, (p, pt) ∈ a.inbox m → ∃ t ∈ a.sys.chats, ∃ b c, t.party b = m ∧ t.party (!b) = p ∧ (c, pt) ∈ t.sent (!b)
  heard : ∀ m n d, d ∈ heardBy m n a.log → ∃ x, (owner n, enc n x) ∈ a.inbox m ∧ SenderKeyDistributionMessage.parse x = .ok d

omit C [DecidableEq P] in
theorem noted_keeps {inbox : P → List (P × Bytes)} [DecidableEq P] (e : SysEvent P) {m : P} {q : P × Bytes} (h : q ∈ inbox m) :
    q ∈ noted inbox e m := by
  cases e with
  | sent => exact h
  | unseen => exact h
  | received m' p' r =>
    cases r with
    | error e => exact h
    | ok pt =>
      show q ∈ upd inbox m' (inbox m' ++ [(p', pt)]) m
      by_cases hm : m = m'
      · subst hm
        rw [upd_same]
        exact List.mem_append_left _ h
      · rw [upd_other _ _ hm]
        exact h

omit C [DecidableEq P] in
theorem Spec.CreatedFor.told {n : SenderKeyName} {log : RoomLog P} {x : Bytes} (h : CreatedFor n log x)
    {d : SenderKeyDistributionMessage} (hd : SenderKeyDistributionMessage.parse x = .ok d) : Announced n log d := by
  obtain ⟨e, h1, rnd, d0, h2, h3, rfl⟩ := h
  exact ⟨e, h1, rnd, d0, h2, h3, hd⟩

omit C in
theorem heard_single {m x : P} {n : SenderKeyName} {c : GroupCall} {r : Res GroupReply} {d : SenderKeyDistributionMessage}
    (h : d ∈ heardBy m n [⟨x, c, r⟩]) : m = x ∧ c = .process n d := by
  unfold heardBy at h
  obtain ⟨e, he, hx⟩ := List.mem_filterMap.1 h
  rw [List.mem_singleton.1 he] at hx
  cases c with
  | process n' d' =>
    cases r with
    | error e => cases hx
    | ok v =>
      simp only at hx
      split at hx
      · rename_i hq
        obtain ⟨rfl, rfl⟩ := hq
        cases hx
        exact ⟨rfl, rfl⟩
      · cases hx
  | create _ _ => cases hx
  | encrypt _ _ _ => cases hx
  | decrypt _ _ => cases hx

theorem removal_inv (hC : C.Lawful) {owner : SenderKeyName → P} {enc : SenderKeyName → Bytes → Bytes} {safe : SenderKeyName → Nat → Prop}
    {a : Society P} (h : RSocietyReach owner enc safe a) : RemovalInv owner enc safe a := by
  induction h with
  | init =>
    exact ⟨.init, .start, fun t ht => (List.not_mem_nil ht).elim, fun m p pt h => (List.not_mem_nil h).elim,
      fun m n d h => (List.not_mem_nil h).elim⟩
  | @step a a' _ hs ih =>
    cases hs with
    | @talk e sys hs hon =>
      have hs := sysStep_imp hs fun t ht b type bytes hc => crafts_attack hC ih.sys ht hc
      refine ⟨.step ih.sys hs, ih.room, ?_, ?_, ?_⟩
      · intro t ht b c n x hx ho
        rcases sys_sent hs ht hx with ⟨u, hu, hp, hx⟩ | ⟨q, rfl⟩
        · exact ih.sent u hu b c n x hx (by rw [hp]; exact ho)
        · exact hon n x rfl ho
      · intro m p pt hm
        have old : (p, pt) ∈ a.inbox m →
            ∃ t ∈ sys.chats, ∃ b c, t.party b = m ∧ t.party (!b) = p ∧ (c, pt) ∈ t.sent (!b) := by
          intro hm
          obtain ⟨t, h1, b, c, h2, h3, h4⟩ := ih.inbox m p pt hm
          obtain ⟨t', q1, q2, q3⟩ := sys_kept hs h1 h4
          exact ⟨t', q1, b, c, by rw [q2]; exact h2, by rw [q2]; exact h3, q3⟩
        cases e with
        | sent => exact old hm
        | unseen => exact old hm
        | received m' p' r =>
          cases r with
          | error e => exact old hm
          | ok pt' =>
            have hm : (p, pt) ∈ upd a.inbox m' (a.inbox m' ++ [(p', pt')]) m := hm
            by_cases hmm : m = m'
            · subst hmm
              rw [upd_same] at hm
              rcases List.mem_append.1 hm with hm | hm
              · exact old hm
              · obtain ⟨rfl, rfl⟩ := Prod.mk.inj (List.mem_singleton.1 hm)
                obtain ⟨t, h1, b, c, h2, h3, h4⟩ := sys_received hC ih.sys hs
                obtain ⟨t', q1, q2, q3⟩ := sys_kept hs h1 h4
                exact ⟨t', q1, b, c, by rw [q2]; exact h2, by rw [q2]; exact h3, q3⟩
            · rw [upd_other _ _ hmm] at hm
              exact old hm
      · intro m n d hd
        obtain ⟨x, h1, h2⟩ := ih.heard m n d hd
        exact ⟨x, noted_keeps e h1, h2⟩
    | group m c hal =>
      refine ⟨ih.sys, ?_, fun t ht b c n x hx ho => (ih.sent t ht b c n x hx ho).more, ih.inbox, ?_⟩
      · refine RenewCraftReach.call m c ih.room ?_
        cases c with
        | process n d =>
          obtain ⟨h0, x, h1, h2⟩ := hal
          obtain ⟨t, q1, b, c, q2, q3, q4⟩ := ih.inbox _ _ _ h1
          exact ⟨h0, (ih.sent t q1 _ c n x q4 q3.symm).told h2⟩
        | encrypt n pt rand => exact hal
        | decrypt n b => exact hal
        | create n rnd => exact hal
      · intro m' n d hd
        have hd : d ∈ heardBy m' n (a.log ++ [_]) := hd
        rw [heardBy_append] at hd
        rcases List.mem_append.1 hd with hd | hd
        · exact ih.heard m' n d hd
        · obtain ⟨rfl, rfl⟩ := heard_single hd
          exact hal.2
    | renew n rnd h1 h2 h3 h4 =>
      refine ⟨ih.sys, .renew n rnd ih.room h1 h2 h3 h4, fun t ht b c n x hx ho => (ih.sent t ht b c n x hx ho).more, ih.inbox, ?_⟩
      intro m' n' d hd
      have hd : d ∈ heardBy m' n' (a.log ++ [_]) := hd
      rw [heardBy_append] at hd
      rcases List.mem_append.1 hd with hd | hd
      · exact ih.heard m' n' d hd
      · cases (heard_single hd).2

/-- **C105, the whole.** With an attacker who computes, in conversations and in groups whose keys are renewed and announced in the
conversations, the conversations go as in C87 and the groups as in C102; that announcements arrive as the owner made them follows. -/
theorem C105_society (hC : C.Lawful) {owner : SenderKeyName → P} {enc : SenderKeyName → Bytes → Bytes} {safe : SenderKeyName → Nat → Prop}
    {a : Society P} (h : RSocietyReach owner enc safe a) : SysReach a.sys ∧ RenewReach owner safe a.groups a.log :=
  ⟨(removal_inv hC h).sys, C103_reach hC owner safe a.groups a.log (removal_inv hC h).room⟩

/-- **C105, authenticity.** What a member reads under a safe key was sent by the owner of the name, with this plaintext, and is read
once, whatever has happened with the other keys of the name. -/
theorem C105_genuine (hC : C.Lawful) {owner : SenderKeyName → P} {enc : SenderKeyName → Bytes → Bytes} {safe : SenderKeyName → Nat → Prop}
    {a : Society P} (h : RSocietyReach owner enc safe a) (n : SenderKeyName) (m : P) :
    (∀ p ∈ readBy m n a.log, ∀ id, messageKeyId p.1 = some id → safe n id →
      m ≠ owner n ∧ ∃ x ∈ sentUnder n a.log, SameBody p.1 x.bytes ∧ p.2 = x.plaintext) ∧
    (readBy m n a.log).Pairwise fun p q => ∀ id, messageKeyId p.1 = some id → safe n id → ¬ SameBody p.1 q.1 := by
  have hr := (C105_society hC h).2
  refine ⟨fun p hp id hid hsafe => ?_, C102_once hC owner safe _ _ hr n m⟩
  obtain ⟨h0, i, _, x, _, _, hx, h1, h2, _⟩ := C102_genuine hC owner safe _ _ hr n id hsafe m p hp hid
  exact ⟨h0, x, (sent_ofKey.1 (List.mem_of_getElem? hx)).1, h1, h2⟩

/-- What a member has heard of a key was sent to it in a conversation. -/
theorem heard_sent (hC : C.Lawful) {owner : SenderKeyName → P} {enc : SenderKeyName → Bytes → Bytes} {safe : SenderKeyName → Nat → Prop}
    {a : Society P} (h : RSocietyReach owner enc safe a) {m : P} {n : SenderKeyName} {id : Nat} {d : SenderKeyDistributionMessage}
    (hd : d ∈ heardBy m n (ofKey n id a.log)) :
    ∃ t ∈ a.sys.chats, ∃ (b : Bool) (j : Nat) (c : Ciphertext) (pt : Bytes) (k : Nat), t.party b = m ∧ t.party (!b) = owner n ∧
      (t.sent (!b))[j]? = some (c, pt) ∧ AnnouncesKey enc n (ofKey n id a.log) k pt := by
  have hi := removal_inv hC h
  obtain ⟨hd', rfl⟩ := heard_ofKey.1 hd
  obtain ⟨x, h1, h2⟩ := hi.heard m n d hd'
  obtain ⟨t, ht, b, c, h3, h4, h5⟩ := hi.inbox _ _ _ h1
  obtain ⟨j, hj⟩ := List.mem_iff_getElem?.1 h5
  obtain ⟨e, he, rnd, d0, k1, k2, rfl⟩ := hi.sent t ht _ c n x h5 h4.symm
  have hab : About n d.id e = true := by
    unfold About
    rw [k1, k2]
    simp [announcementKeyId, h2, Except.toOption]
  obtain ⟨pre, post, hp⟩ := List.append_of_mem (List.mem_filter.2 ⟨he, hab⟩ : e ∈ ofKey n d.id a.log)
  exact ⟨t, ht, b, j, c, _, _, h3, h4, hj, pre, e, post, rnd, d0, hp, k1, k2, rfl, rfl⟩

/-- **C105, secrecy.** Who can read a message under a safe key, with any loot as in C100: those who have a record that opens it, going by
what its holder has done with this key, the owner's only if the key has not been replaced; and those to whom the plaintext of an
announcement of this key, not younger than the message, was given, or who have the session states of a party for whom one waits. -/
theorem C105_exact (hC : C.Lawful) {owner : SenderKeyName → P} {enc : SenderKeyName → Bytes → Bytes} {safe : SenderKeyName → Nat → Prop}
    {a : Society P} (h : RSocietyReach owner enc safe a) :
    ∃ names : Chat P → (KeyName → Bytes) × Nat,
      (∀ t ∈ a.sys.chats, ∃ spkId, Named (names t).1 (names t).2 spkId t.cv (t.net a.sys.world)) ∧
      ∀ loot : Loot P, (∀ t ∈ a.sys.chats, (∀ b, ¬ loot.keys t (.base b)) ∧ ¬ loot.keys t .oneTime) →
        ∀ (n : SenderKeyName) (id : Nat), safe n id → ∀ (headers : Nat → Bytes) (i : Nat) (x : GroupSent),
          (sentUnder n (ofKey n id a.log))[i]? = some x → ¬ loot.said i →
          (KeyOpened names enc headers loot a n id i ↔
            (∃ m, loot.records m ∧ (m = owner n → ∃ e, LastAnnounced n a.log e ∧ e.id = id) ∧
              Exposes owner n (ofKey n id a.log) m i x.bytes) ∨
            ∃ t ∈ a.sys.chats, ∃ (b : Bool) (j : Nat) (c : Ciphertext) (pt : Bytes) (k : Nat),
              (t.sent (!b))[j]? = some (c, pt) ∧ AnnouncesKey enc n (ofKey n id a.log) k pt ∧ k ≤ i ∧
              (loot.texts t (!b) j ∨ (loot.sessions (t.party b) ∧ StillOpens a.sys.world t b j c))) := by
  obtain ⟨hsys, hroom⟩ := C105_society hC h
  obtain ⟨names, hn⟩ := names_exist hC hsys
  refine ⟨names, fun t ht => (hn t ht).named, fun loot hl n id hsafe headers i x hx hsaid => ?_⟩
  have hne : sentUnder n (ofKey n id a.log) ≠ [] := by
    intro e
    rw [e] at hx
    cases hx
  obtain ⟨V, hV, _⟩ := C102_each hC owner safe _ _ hroom n id hsafe
  obtain ⟨d, hd⟩ := C90_first hC owner V _ hV n (.inl hne)
  have key := C102_theft hC owner safe a.groups a.groups a.log [] hroom (by rw [List.append_nil]; exact hroom) n id hsafe loot.records
    (fun k => ∃ t ∈ a.sys.chats, ∃ (b : Bool) (j : Nat) (c : Ciphertext) (pt : Bytes),
      (t.sent b)[j]? = some (c, pt) ∧ AnnouncesKey enc n (ofKey n id a.log) k pt ∧
        ChatOpened (names t).1 (names t).2 a.sys.world loot t b j)
    loot.said headers d hd i x (by rw [List.append_nil]; exact hx) hsaid
  rw [List.append_nil] at key
  unfold KeyOpened
  rw [key]
  constructor
  · rintro (⟨k, hk, t, ht, b, j, c, pt, q1, q2, q3⟩ | ⟨m, ⟨q1, q2⟩, q3⟩)
    · obtain ⟨b, rfl⟩ : ∃ b', b = !b' := ⟨!b, by simp⟩
      exact .inr ⟨t, ht, b, j, c, pt, k, q1, q2, hk, ((hn t ht).opened loot (hl t ht).1 (hl t ht).2 b j c pt q1).1 q3⟩
    · exact .inl ⟨m, q1, q2, q3⟩
  · rintro (⟨m, q1, q2, q3⟩ | ⟨t, ht, b, j, c, pt, k, q1, q2, hk, q3⟩)
    · exact .inr ⟨m, ⟨q1, q2⟩, q3⟩
    · exact .inl ⟨k, hk, t, ht, !b, j, c, pt, q1, q2, ((hn t ht).opened loot (hl t ht).1 (hl t ht).2 b j c pt q1).2 q3⟩

/-- **C105, removed members.** Parties to whom no announcement of a key has been sent read nothing under it: not together, not with all
their session states and sender-key records, with all the messages of everybody, and with everybody's private keys but base keys and
one-time prekeys, nor with the plaintexts of all messages of conversations that are not announcements of this key. -/
theorem C105_removed (hC : C.Lawful) {owner : SenderKeyName → P} {enc : SenderKeyName → Bytes → Bytes} {safe : SenderKeyName → Nat → Prop}
    {a : Society P} (h : RSocietyReach owner enc safe a) :
    ∃ names : Chat P → (KeyName → Bytes) × Nat,
      (∀ t ∈ a.sys.chats, ∃ spkId, Named (names t).1 (names t).2 spkId t.cv (t.net a.sys.world)) ∧
      ∀ (n : SenderKeyName) (id : Nat) (R : P → Prop), safe n id → ¬ R (owner n) → NotSentTo enc n id R a →
        ∀ loot : Loot P, (∀ t ∈ a.sys.chats, (∀ b, ¬ loot.keys t (.base b)) ∧ ¬ loot.keys t .oneTime) →
          (∀ p, loot.sessions p → R p) → (∀ p, loot.records p → R p) →
          (∀ t ∈ a.sys.chats, ∀ (b : Bool) (j : Nat) (c : Ciphertext) (pt : Bytes) (k : Nat), (t.sent b)[j]? = some (c, pt) →
            AnnouncesKey enc n (ofKey n id a.log) k pt → ¬ loot.texts t b j) →
          ∀ (headers : Nat → Bytes) (i : Nat), i < (sentUnder n (ofKey n id a.log)).length → ¬ loot.said i →
            ¬ KeyOpened names enc headers loot a n id i := by
  obtain ⟨names, h1, h2⟩ := C105_exact hC h
  refine ⟨names, h1, fun n id R hsafe hown hnot loot hl l1 l2 l3 headers i hi hsaid => ?_⟩
  rw [h2 loot hl n id hsafe headers i _ (List.getElem?_eq_getElem hi) hsaid]
  rintro (⟨m, q1, _, q3⟩ | ⟨t, ht, b, j, c, pt, k, q1, q2, _, q3 | ⟨q3, _⟩⟩)
  · have hm : m ≠ owner n := by
      rintro rfl
      exact hown (l2 _ q1)
    unfold Exposes at q3
    rw [if_neg hm] at q3
    obtain ⟨d, rest, q3, _⟩ := q3
    obtain ⟨t, ht, b, j, c, pt, k, r1, _, r2, r3⟩ := heard_sent hC h (m := m) (n := n) (id := id) (d := d) (by rw [q3]; exact List.mem_cons_self)
    exact hnot t ht b j c pt k r2 r3 (r1 ▸ l2 _ q1)
  · exact l3 t ht _ j c pt k q1 q2 q3
  · exact hnot t ht b j c pt k q1 q2 (l1 _ q3)

/-- **C105, removed members forge nothing.** Whatever records other parties than the owner have, now or at any time, the private signing
key of the name is not in them; nor is that of a key announced later in any record, the owner's included. -/
theorem C105_no_signing (hC : C.Lawful) {owner : SenderKeyName → P} {enc : SenderKeyName → Bytes → Bytes}
    {safe safe' : SenderKeyName → Nat → Prop} {a a' : Society P} (h : RSocietyReach owner enc safe a)
    (h' : RSocietyReach owner enc safe' a') (n : SenderKeyName) (id : Nat) (hnew : Unannounced a.log n id)
    (T : P → Prop) (intercepted texts intercepted' texts' : Nat → Prop) :
    ¬ ((groupTheft n (onlyKey n id a.groups) T intercepted texts).both
      (groupTheft n (onlyKey n id a'.groups) (· ≠ owner n) intercepted' texts')).signing :=
  C103_no_signing hC owner _ _ _ _ _ _ (C105_society hC h).2 (C105_society hC h').2 n id hnew T _ _ _ _

/-- **C105, remaining members.** If the owner of a name has sent an announcement of a safe key to a party in a conversation, then the
party, having received it for the first time and within the limits of C37, can process it and reads every message sent under this key
since the announcement was made, whatever other keys of the name it has or has had. -/
theorem C105_join (hC : C.Lawful) {owner : SenderKeyName → P} {enc : SenderKeyName → Bytes → Bytes} {safe : SenderKeyName → Nat → Prop}
    {a : Society P} (h : RSocietyReach owner enc safe a) {n : SenderKeyName} {k : Nat} {t : Chat P} (hk : a.sys.chats[k]? = some t) {b : Bool}
    (hb : t.party b ≠ owner n) (hown : t.party (!b) = owner n) {i : Nat} {c : Ciphertext} {x : Bytes}
    (hi : (t.sent (!b))[i]? = some (c, enc n x)) (hnew : i ∉ t.accepted b)
    (hlim : (t.net a.sys.world).inLimits t.cv b (header c)) {seed : Bytes} (hseed : seed.length = 32)
    (hfresh : C.genPub (C.genPriv seed) ∉ t.keys) {d : SenderKeyDistributionMessage}
    (hd : SenderKeyDistributionMessage.parse x = .ok d) (hsafe : safe n d.id) (hun : heardBy (t.party b) n (ofKey n d.id a.log) = []) :
    ∃ a' a'', RSocietyStep owner enc safe a a' ∧ RSocietyStep owner enc safe a' a'' ∧
      a''.log = a.log ++ [⟨t.party b, .process n d, .ok .done⟩] ∧
      ∀ (j : Nat) (y : GroupSent), (sentUnder n (ofKey n d.id a.log))[j]? = some y → d.iteration ≤ j →
        (GroupCipher.decrypt (a''.groups (t.party b)) n y.bytes).result = .ok y.plaintext := by
  have hinv := removal_inv hC h
  have hroom := (C105_society hC h).2
  have hok := (C87_conversation hC hinv.sys (List.mem_of_getElem? hk) hi hseed hfresh (fun _ => [])).1 hnew hlim
  have hstep := SysStepBy.deliver (A := Crafts) (seeds := fun _ => []) hk hi (fun _ => hlim) (fun q => absurd q hnew) hseed hfresh
  have hcr := hinv.sent t (List.mem_of_getElem? hk) (!b) c n x (List.mem_of_getElem? hi) hown.symm
  obtain ⟨kk, han⟩ := announced_ofKey (hcr.told hd)
  obtain ⟨V, hV, _⟩ := C102_each hC owner safe _ _ hroom n d.id hsafe
  obtain ⟨d0, hrun⟩ := hV.running hC han
  obtain ⟨hdesc, hle⟩ := hrun.announced kk d han
  have h1 : d.id < 2 ^ 32 := by rw [hdesc.id]; exact hrun.id
  have h2 : d.iteration < 2 ^ 32 := by rw [hdesc.it]; exact Nat.lt_of_le_of_lt hle hrun.small
  rw [hok] at hstep
  obtain ⟨a', s1, e1, e2, e3⟩ : ∃ a', RSocietyStep owner enc safe a a' ∧ a'.groups = a.groups ∧ a'.log = a.log ∧
      (owner n, enc n x) ∈ a'.inbox (t.party b) := by
    refine ⟨_, RSocietyStep.talk hstep trivial, rfl, rfl, ?_⟩
    show (owner n, enc n x) ∈ upd a.inbox (t.party b) (a.inbox (t.party b) ++ [(t.party (!b), enc n x)]) (t.party b)
    rw [upd_same, hown]
    exact List.mem_append_right _ (List.mem_singleton.2 rfl)
  have hres : ((GroupCall.process n d).run (a'.groups (t.party b))).result = .ok .done := by
    rw [process_of (.processed h1 h2)]
  have s2 : RSocietyStep owner enc safe a' _ := RSocietyStep.group (t.party b) (.process n d) ⟨hb, x, e3, hd⟩
  have hlog : a'.log ++ [⟨t.party b, .process n d, ((GroupCall.process n d).run (a'.groups (t.party b))).result⟩] =
      a.log ++ [⟨t.party b, .process n d, .ok .done⟩] := by rw [hres, e2]
  refine ⟨a', _, s1, s2, hlog, ?_⟩
  intro j y hy hj
  have hab : About n d.id (⟨t.party b, .process n d, .ok .done⟩ : RoomEntry P) = true := by simp [About]
  have hof : ofKey n d.id (a.log ++ [⟨t.party b, .process n d, .ok .done⟩]) =
      ofKey n d.id a.log ++ [⟨t.party b, .process n d, .ok .done⟩] := by
    unfold ofKey
    rw [List.filter_append, List.filter_cons, if_pos hab]
    rfl
  have hreach := (C105_society hC (.step (.step h s1) s2)).2
  refine C102_read hC owner safe _ _ hreach n d.id hsafe _ hb d [] ?_ kk ?_ j y ?_ (hdesc.it ▸ hj) ?_
  · show heardBy _ _ (ofKey n d.id (a'.log ++ [_])) = _
    rw [hlog, hof, heardBy_append, hun]
    simp [heardBy]
  · show AnnouncedAt n (ofKey n d.id (a'.log ++ [_])) kk d
    rw [hlog, hof]
    obtain ⟨pre, e, post, rnd, d1, r1, r2⟩ := han
    exact ⟨pre, e, post ++ [⟨t.party b, .process n d, .ok .done⟩], rnd, d1, by rw [r1, List.append_assoc, List.cons_append], r2⟩
  · show (sentUnder n (ofKey n d.id (a'.log ++ [_])))[j]? = _
    rw [hlog, hof, sentUnder_append, List.getElem?_append_left (List.getElem?_eq_some_iff.1 hy).1]
    exact hy
  · show ∀ p ∈ readBy _ _ (a'.log ++ [_]), _
    rw [hlog, readBy_append]
    intro p hp hs
    rcases List.mem_append.1 hp with hp | hp
    · obtain ⟨e, q1, q2, _⟩ := C102_told hC owner safe _ _ hroom n _ hb p hp
      obtain ⟨hl, my, hmy⟩ := hroom.sent_long hC (sent_ofKey.1 (List.mem_of_getElem? hy)).1
      obtain ⟨mp, hmp⟩ := hroom.read_parses hp
      have : e ∈ heardBy (t.party b) n (ofKey n d.id a.log) := by
        refine heard_ofKey.2 ⟨q1, ?_⟩
        have e1 := (sent_ofKey.1 (List.mem_of_getElem? hy)).2
        rw [messageKeyId_of hmp, (hs.symm.parse hl hmy hmp).1, ← messageKeyId_of hmy, e1] at q2
        exact (Option.some.inj q2).symm
      rw [hun] at this
      cases this
    · simp [readBy] at hp

/-- The conversations can go on as in C87. -/
theorem talk_renew (hC : C.Lawful) {owner : SenderKeyName → P} {enc : SenderKeyName → Bytes → Bytes} {safe : SenderKeyName → Nat → Prop}
    {a : Society P} {e : SysEvent P} {sys : System P} (h : RSocietyReach owner enc safe a) (hs : SysStep a.sys e sys)
    (hon : HonestEvent owner enc a.log e) : RSocietyReach owner enc safe ⟨sys, a.groups, a.log, noted a.inbox e⟩ := by
  refine .step h (.talk (sysStep_imp hs fun t ht b type bytes hc => ?_) hon)
  obtain ⟨n0, k1, k2⟩ := C87_each hC (removal_inv hC h).sys ht
  exact attack_outside hC k1 k2 hc

end

/-! ## Non-vacuity: Alice renews the key of the society of C88 -/

section
attribute [local instance] toy
open Example Spec

theorem soc_talk {safe : SenderKeyName → Nat → Prop} {a a' : Society (Fin 3)} (h : RSocietyReach socOwner socEnc safe a)
    (hs : ∃ e sys, SysStep a.sys e sys ∧ HonestEvent socOwner socEnc a.log e ∧ a' = ⟨sys, a.groups, a.log, noted a.inbox e⟩) :
    RSocietyReach socOwner socEnc safe a' := by
  obtain ⟨e, sys, h1, h2, rfl⟩ := hs
  exact talk_renew toy_lawful h h1 h2

theorem socSend_talk {a a' : Society (Fin 3)} {k : Nat} {b : Bool} {x : Bytes} (hx : createdB a.log x = true)
    (h : socSend a k b (1 :: x) = some a') :
    ∃ e sys, SysStep a.sys e sys ∧ HonestEvent socOwner socEnc a.log e ∧ a' = ⟨sys, a.groups, a.log, noted a.inbox e⟩ := by
  obtain ⟨s, hs, rfl⟩ := Option.map_eq_some_iff.1 h
  obtain ⟨t, ht, hs⟩ := sysSend_step hs
  refine ⟨_, _, hs, ?_, rfl⟩
  intro n x' he _
  unfold socEnc at he
  split at he
  · rename_i hn
    injection he with _ he
    rw [hn, ← he]
    exact created_of hx
  · injection he with he _
    exact absurd he (by decide)

theorem socDeliver_talk {a a' : Society (Fin 3)} {k i : Nat} {b : Bool} {seed : Bytes} (h : socDeliver a k b i seed = some a') :
    ∃ e sys, SysStep a.sys e sys ∧ HonestEvent socOwner socEnc a.log e ∧ a' = ⟨sys, a.groups, a.log, noted a.inbox e⟩ := by
  unfold socDeliver at h
  split at h
  · cases h
  · rename_i t ht
    split at h
    · cases h
    · rename_i c pt hc
      obtain ⟨s, hs, rfl⟩ := Option.map_eq_some_iff.1 h
      obtain ⟨t', c', pt', ht', hc', hs⟩ := sysDeliver_step hs
      rw [ht] at ht'
      obtain rfl := Option.some.inj ht'
      rw [hc] at hc'
      obtain ⟨rfl, rfl⟩ := Prod.mk.inj (Option.some.inj hc')
      exact ⟨_, _, hs, trivial, rfl⟩

/-- After Bob has taken up the first key, Alice sends a message under it, renews the key, and sends a message under the new one. -/
def rem1 (a : Society (Fin 3)) : Society (Fin 3) :=
  ⟨(soc4 a).sys, fun x => if x = 0 then (GroupCall.create grp newRand).next (emptied ((soc4 a).groups 0) grp) else (soc4 a).groups x,
    (soc4 a).log ++ [⟨0, .create grp newRand, ((GroupCall.create grp newRand).run (emptied ((soc4 a).groups 0) grp)).result⟩], (soc4 a).inbox⟩
def rem2 (a : Society (Fin 3)) : Society (Fin 3) := socCall (rem1 a) 0 (.encrypt grp [5] grpSig)

/-- And then, if Bob is to remain, sends the announcement of the new key to Bob. -/
def rem3 : Option (Society (Fin 3)) := soc2.bind fun a => socSend (rem2 a) 0 true (1 :: newDist.serialized)

def remCheck (a : Society (Fin 3)) : Bool :=
  a.inbox 1 == [(0, 1 :: grpDist.serialized)] &&
  (soc4 a).log.all (fun e => !About grp 78 e) &&
  sentUnder grp (ofKey grp 77 (rem2 a).log) == [⟨grp, [1], grpMsg 0⟩] && sentUnder grp (ofKey grp 78 (rem2 a).log) == [⟨grp, [5], newMsg⟩] &&
  heardBy 1 grp (ofKey grp 77 (rem2 a).log) == [grpDist] && readBy 1 grp (ofKey grp 77 (rem2 a).log) == [] &&
  (ofKey grp 78 (rem2 a).log).all (fun e => match e.reply with
    | .ok (.distribution d) => d.serialized == newDist.serialized
    | _ => true) &&
  a.sys.chats.all (fun t => [true, false].all fun b => (t.sent b).all fun x => x.2 != 1 :: newDist.serialized) &&
  createdB (rem2 a).log newDist.serialized && decide (grpDist.iteration = 0) &&
  heardBy 1 grp (ofKey grp newDist.id (rem2 a).log) == []

theorem rem_check : soc2.any remCheck = true := by decide +kernel

def remCheck3 (a : Society (Fin 3)) : Bool :=
  match a.sys.chats[0]? with
  | none => false
  | some t => match (t.sent true)[1]? with
    | none => false
    | some (c, pt) => decide (t.party false = 1) && decide (t.party true = 0) && pt == 1 :: newDist.serialized &&
        !(t.accepted false).contains 1 && (seenKeys (t.cv.start false) ((t.net a.sys.world).log false)).contains (header c).1 &&
        decide ((seenKeys (t.cv.start false) ((t.net a.sys.world).log false)).length ≤ 5) &&
        decide ((header c).2 ≤ nextCounter ((t.net a.sys.world).log false) (header c).1 + 2000) &&
        !(t.keys.contains (toy.genPub (toy.genPriv (key 52))))

theorem rem_check3 : rem3.any remCheck3 = true := by decide +kernel

theorem rem_reach {a : Society (Fin 3)} (h : soc2 = some a) (hc : remCheck a = true) :
    RSocietyReach socOwner socEnc (fun _ _ => True) (rem2 a) := by
  unfold remCheck at hc
  simp only [Bool.and_eq_true, beq_iff_eq, decide_eq_true_eq] at hc
  have r0 : RSocietyReach socOwner socEnc (fun _ _ => True) soc0 :=
    talk_renew toy_lawful (a := ⟨sys1, fun _ => GroupStore.empty, [], fun _ => []⟩) (e := .unseen)
      (talk_renew toy_lawful (a := ⟨sys0, fun _ => GroupStore.empty, [], fun _ => []⟩) (e := .unseen) (.init (world := sys0.world))
        sys_start1 trivial) sys_start2 trivial
  have r1 : RSocietyReach socOwner socEnc (fun _ _ => True) soc1 :=
    .step r0 (.group 0 (.create grp grpRand) ⟨rfl, by decide +kernel, by decide +kernel⟩)
  unfold soc2 at h
  obtain ⟨a1, h1, h2⟩ := Option.bind_eq_some_iff.1 h
  have r2 : RSocietyReach socOwner socEnc (fun _ _ => True) a :=
    soc_talk (soc_talk r1 (socSend_talk (by decide +kernel) h1)) (socDeliver_talk h2)
  have r3 : RSocietyReach socOwner socEnc (fun _ _ => True) (soc3 a) :=
    .step r2 (.group 1 (.process grp grpDist) ⟨by decide, grpDist.serialized, by
      rw [hc.1.1.1.1.1.1.1.1.1.1]
      exact List.mem_singleton.2 rfl, by decide +kernel⟩)
  have r4 : RSocietyReach socOwner socEnc (fun _ _ => True) (soc4 a) :=
    .step r3 (.group 0 (.encrypt grp [1] grpSig) ⟨by decide +kernel, by decide +kernel⟩)
  have r5 : RSocietyReach socOwner socEnc (fun _ _ => True) (rem1 a) := by
    refine .step r4 (.renew grp newRand (by decide +kernel) (by decide +kernel) (by decide +kernel) fun d hd e => ?_)
    obtain ⟨x, hx, q⟩ := hd
    have k1 := About.announced (⟨x, List.mem_singleton.2 rfl, q⟩ : Announced grp [x] d)
    have k2 := List.all_eq_true.1 hc.1.1.1.1.1.1.1.1.1.2 x hx
    rw [e] at k1
    have k1 : About grp 78 x = true := k1
    rw [k1] at k2
    cases k2
  exact .step r5 (.group 0 (.encrypt grp [5] grpSig) ⟨by decide +kernel, by decide +kernel⟩)

theorem rem_not_sent {a : Society (Fin 3)} (hc : remCheck a = true) : NotSentTo socEnc grp 78 (· = 1) (rem2 a) ∧
    ∀ t ∈ (rem2 a).sys.chats, ∀ (b : Bool) (j : Nat) (c : Ciphertext) (pt : Bytes) (k : Nat), (t.sent b)[j]? = some (c, pt) →
      ¬ AnnouncesKey socEnc grp (ofKey grp 78 (rem2 a).log) k pt := by
  unfold remCheck at hc
  simp only [Bool.and_eq_true, beq_iff_eq, decide_eq_true_eq] at hc
  obtain ⟨⟨⟨⟨⟨⟨⟨⟨⟨⟨_, _⟩, _⟩, _⟩, _⟩, _⟩, h5⟩, h6⟩, _⟩, _⟩, _⟩ := hc
  suffices hn : ∀ t ∈ (rem2 a).sys.chats, ∀ (b : Bool) (j : Nat) (c : Ciphertext) (pt : Bytes) (k : Nat), (t.sent b)[j]? = some (c, pt) →
      ¬ AnnouncesKey socEnc grp (ofKey grp 78 (rem2 a).log) k pt from
    ⟨fun t ht b j c pt k hj hk => (hn t ht _ j c pt k hj hk).elim, hn⟩
  intro t ht b j c pt k hj hk
  obtain ⟨pre, e, post, rnd, d, q1, q2, q3, q4, _⟩ := hk
  have k1 := List.all_eq_true.1 h5 e (by rw [q1]; simp)
  rw [q3] at k1
  have k1 : d.serialized = newDist.serialized := by simpa using k1
  have k2 := List.all_eq_true.1 h6 t ht
  have k2 := List.all_eq_true.1 k2 b (by cases b <;> decide)
  have k2 := List.all_eq_true.1 k2 (c, pt) (List.mem_of_getElem? hj)
  have k3 : pt = 1 :: newDist.serialized := by rw [q4, k1]; exact if_pos rfl
  rw [k3] at k2
  simp at k2

/-- `C105_exact`: after Alice has renewed the key and not told Bob, whoever has all of Bob's session states and records
reads the message under the old key, which Bob has not read. -/
example : ∃ (a : Society (Fin 3)) (names : Chat (Fin 3) → (KeyName → Bytes) × Nat) (loot : Loot (Fin 3)),
    RSocietyReach socOwner socEnc (fun _ _ => True) a ∧ NotSentTo socEnc grp 78 (· = 1) a ∧ loot.sessions 1 ∧ loot.records 1 ∧
    (sentUnder grp (ofKey grp 78 a.log)).length = 1 ∧ KeyOpened names socEnc (fun _ => []) loot a grp 77 0 := by
  have h := rem_check
  cases hr : soc2 with
  | none => rw [hr] at h; cases h
  | some a =>
    rw [hr] at h
    have h : remCheck a = true := h
    have hreach := rem_reach hr h
    obtain ⟨names, _, hx⟩ := C105_exact toy_lawful hreach
    have hc := h
    unfold remCheck at hc
    simp only [Bool.and_eq_true, beq_iff_eq, decide_eq_true_eq] at hc
    obtain ⟨⟨⟨⟨⟨⟨⟨⟨⟨⟨_, _⟩, h1⟩, h2⟩, h3⟩, h4⟩, _⟩, _⟩, _⟩, h7⟩, _⟩ := hc
    refine ⟨rem2 a, names, ⟨(· = 1), (· = 1), fun _ _ => False, fun _ _ _ => False, fun _ => False⟩, hreach, ?_, rfl, rfl, by rw [h2]; rfl, ?_⟩
    · exact (rem_not_sent h).1
    · have hs : (sentUnder grp (ofKey grp 77 (rem2 a).log))[0]? = some ⟨grp, [1], grpMsg 0⟩ := by rw [h1]; rfl
      refine (hx _ (fun _ _ => ⟨fun _ q => q, fun q => q⟩) grp 77 trivial _ 0 _ hs (fun q => q)).2 (.inl ⟨1, rfl, fun q => absurd q (by decide), ?_⟩)
      unfold Exposes
      rw [if_neg (by decide)]
      refine ⟨grpDist, [], h3, .inl ⟨by rw [h7], ?_⟩⟩
      rw [h4]
      intro p hp
      cases hp

/-- `C105_removed`: but they do not read the one under the new key. -/
example : ∃ (a : Society (Fin 3)) (names : Chat (Fin 3) → (KeyName → Bytes) × Nat),
    RSocietyReach socOwner socEnc (fun _ _ => True) a ∧ (sentUnder grp (ofKey grp 78 a.log))[0]? = some ⟨grp, [5], newMsg⟩ ∧
    ¬ KeyOpened names socEnc (fun _ => []) ⟨(· = 1), (· = 1), fun _ _ => False, fun _ _ _ => False, fun _ => False⟩ a grp 78 0 := by
  have h := rem_check
  cases hr : soc2 with
  | none => rw [hr] at h; cases h
  | some a =>
    rw [hr] at h
    have h : remCheck a = true := h
    have hreach := rem_reach hr h
    obtain ⟨names, _, hx⟩ := C105_removed toy_lawful hreach
    have hn := rem_not_sent h
    unfold remCheck at h
    simp only [Bool.and_eq_true, beq_iff_eq, decide_eq_true_eq] at h
    obtain ⟨⟨⟨⟨⟨⟨⟨⟨⟨⟨_, _⟩, _⟩, h2⟩, _⟩, _⟩, _⟩, _⟩, _⟩, _⟩, _⟩ := h
    refine ⟨rem2 a, names, hreach, by rw [h2]; rfl, ?_⟩
    exact hx grp 78 (· = 1) trivial (by decide) hn.1 _ (fun _ _ => ⟨fun _ q => q, fun q => q⟩) (fun _ q => q) (fun _ q => q)
      (fun t ht b j c pt k hj hk => (hn.2 t ht b j c pt k hj hk).elim) _ 0 (by rw [h2]; decide) (fun q => q)

/-- `C105_join`: if Alice sends Bob the announcement of the new key, Bob can process it and reads the message under it. -/
example : ∃ a a' a'' : Society (Fin 3), RSocietyReach socOwner socEnc (fun _ _ => True) a ∧
    RSocietyStep socOwner socEnc (fun _ _ => True) a a' ∧ RSocietyStep socOwner socEnc (fun _ _ => True) a' a'' ∧
    (GroupCipher.decrypt (a''.groups 1) grp newMsg).result = .ok [5] := by
  have h3 := rem_check3
  cases hr : rem3 with
  | none => rw [hr] at h3; cases h3
  | some a =>
    rw [hr] at h3
    have h3 : remCheck3 a = true := h3
    unfold rem3 at hr
    obtain ⟨a2, k1, k2⟩ := Option.bind_eq_some_iff.1 hr
    have h := rem_check
    rw [k1] at h
    have h : remCheck a2 = true := h
    have r2 := rem_reach k1 h
    unfold remCheck at h
    simp only [Bool.and_eq_true, beq_iff_eq, decide_eq_true_eq] at h
    obtain ⟨⟨⟨⟨⟨⟨⟨⟨⟨⟨_, _⟩, _⟩, h2⟩, _⟩, _⟩, _⟩, _⟩, hcr⟩, _⟩, hun⟩ := h
    have r3 := soc_talk r2 (socSend_talk hcr k2)
    have hlog : a.log = (rem2 a2).log := by
      obtain ⟨s, _, rfl⟩ := Option.map_eq_some_iff.1 k2
      rfl
    unfold remCheck3 at h3
    split at h3
    · simp at h3
    · rename_i t ht
      split at h3
      · simp at h3
      · rename_i c pt hc
        simp only [Bool.and_eq_true, beq_iff_eq, decide_eq_true_eq, Bool.not_eq_true', List.contains_eq_mem,
          decide_eq_false_iff_not] at h3
        obtain ⟨⟨⟨⟨⟨⟨⟨g1, g2⟩, g3⟩, g4⟩, g5⟩, g6⟩, g7⟩, g8⟩ := h3
        obtain ⟨a', a'', s1, s2, _, hd⟩ := C105_join toy_lawful r3 ht (b := false) (n := grp) (x := newDist.serialized) (d := newDist)
          (by rw [g1]; decide) (by exact g2) (by show (t.sent true)[1]? = _; rw [hc, g3]; exact congrArg (fun y => some (c, y)) (if_pos rfl).symm) g4
          ⟨fun _ => by
            show _ ∈ (seenKeys (t.cv.start false) ((t.net a.sys.world).log false)).drop
              ((seenKeys (t.cv.start false) ((t.net a.sys.world).log false)).length - 5)
            rw [Nat.sub_eq_zero_of_le g6]
            exact g5, g7⟩ (seed := key 52) (by decide +kernel) g8 (by decide +kernel) trivial (by rw [g1, hlog]; exact hun)
        refine ⟨a, a', a'', r3, s1, s2, ?_⟩
        have hs : (sentUnder grp (ofKey grp newDist.id a.log))[0]? = some ⟨grp, [5], newMsg⟩ := by
          rw [hlog, show newDist.id = 78 by decide +kernel, h2]
          rfl
        have := hd 0 _ hs (by decide +kernel)
        rw [g1] at this
        exact this

end
end Axolotl
