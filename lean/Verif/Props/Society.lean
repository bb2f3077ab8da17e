import Verif.Spec.Society
import Verif.Props.System
import Verif.Props.Room

/-! # C88: groups whose keys are announced in conversations -/

namespace Axolotl
section
variable [C : Crypto] {P : Type} [DecidableEq P]
open Spec

/-- Where what was sent after a step comes from. -/
theorem sys_sent {s s' : System P} {e : SysEvent P} (h : SysStep s e s') {t' : Chat P} (ht : t' ∈ s'.chats) {b : Bool}
    {x : Ciphertext × Bytes} (hx : x ∈ t'.sent b) :
    (∃ t ∈ s.chats, t.party = t'.party ∧ x ∈ t.sent b) ∨ ∃ q, e = .sent (t'.party b) q x.2 := by
  cases h with
  | @start t world hd hap hb hrest hst =>
    rcases List.mem_append.1 ht with ht | ht
    · exact Or.inl ⟨t', ht, rfl, hx⟩
    · obtain rfl := List.mem_singleton.1 ht
      exfalso
      have : ∀ {cv : Conv} {n : Net}, Start cv n → n.sent b = [] := fun h => by cases h <;> rfl
      have hn : t'.sent b = [] := this hst
      rw [hn] at hx
      cases hx
  | @send k t c' pt c hk hj hpt hc =>
    rcases List.mem_or_eq_of_mem_set ht with ht | rfl
    · exact Or.inl ⟨t', ht, rfl, hx⟩
    · by_cases hb : b = c'
      · subst hb
        have hx : x ∈ upd t.sent b (t.sent b ++ [(c, pt)]) b := hx
        rw [upd_same] at hx
        rcases List.mem_append.1 hx with hx | hx
        · exact Or.inl ⟨t, List.mem_of_getElem? hk, rfl, hx⟩
        · obtain rfl := List.mem_singleton.1 hx
          exact Or.inr ⟨_, rfl⟩
      · have hx : x ∈ upd t.sent c' (t.sent c' ++ [(c, pt)]) b := hx
        rw [upd_other _ _ hb] at hx
        exact Or.inl ⟨t, List.mem_of_getElem? hk, rfl, hx⟩
  | @deliver k t c' i c pt seed seeds hk hi h1 h2 h3 h4 =>
    rcases List.mem_or_eq_of_mem_set ht with ht | rfl
    · exact Or.inl ⟨t', ht, rfl, hx⟩
    · exact Or.inl ⟨t, List.mem_of_getElem? hk, rfl, hx⟩
  | @attack k t c' type bytes seed seeds acc hk ha h1 h2 h3 h4 hr hpk =>
    rcases List.mem_or_eq_of_mem_set ht with ht | rfl
    · exact Or.inl ⟨t', ht, rfl, hx⟩
    · exact Or.inl ⟨t, List.mem_of_getElem? hk, rfl, hx⟩
  | other _ => exact Or.inl ⟨t', ht, rfl, hx⟩

omit C [DecidableEq P] in
theorem set_keeps {l : List (Chat P)} {k : Nat} {t t' u : Chat P} {b : Bool} {x : Ciphertext × Bytes} (hk : l[k]? = some t)
    (hp : t'.party = t.party) (hs : ∀ b x, x ∈ t.sent b → x ∈ t'.sent b) (hu : u ∈ l) (hx : x ∈ u.sent b) :
    ∃ u' ∈ l.set k t', u'.party = u.party ∧ x ∈ u'.sent b := by
  obtain ⟨j, hj⟩ := List.mem_iff_getElem?.1 hu
  by_cases hjk : k = j
  · subst hjk
    rw [hk] at hj
    obtain rfl := Option.some.inj hj
    refine ⟨t', List.mem_iff_getElem?.2 ⟨k, ?_⟩, hp, hs b x hx⟩
    rw [List.getElem?_set_self (List.getElem?_eq_some_iff.1 hk).1]
  · exact ⟨u, List.mem_iff_getElem?.2 ⟨j, by rw [List.getElem?_set_ne hjk]; exact hj⟩, rfl, hx⟩

/-- What was sent stays. -/
theorem sys_kept {s s' : System P} {e : SysEvent P} (h : SysStep s e s') {t : Chat P} (ht : t ∈ s.chats) {b : Bool}
    {x : Ciphertext × Bytes} (hx : x ∈ t.sent b) : ∃ t' ∈ s'.chats, t'.party = t.party ∧ x ∈ t'.sent b := by
  cases h with
  | start => exact ⟨t, List.mem_append_left _ ht, rfl, hx⟩
  | @send k u c' pt c hk hj hpt hc =>
    refine set_keeps hk ?_ ?_ ht hx
    · rfl
    · intro b x hx
      show x ∈ upd u.sent c' _ b
      by_cases hb : b = c'
      · subst hb
        rw [upd_same]
        exact List.mem_append_left _ hx
      · rw [upd_other _ _ hb]
        exact hx
  | @deliver k u c' i c pt seed seeds hk hi h1 h2 h3 h4 =>
    refine set_keeps hk ?_ ?_ ht hx
    · rfl
    · exact fun _ _ h => h
  | @attack k u c' type bytes seed seeds acc hk ha h1 h2 h3 h4 hr hpk =>
    refine set_keeps hk ?_ ?_ ht hx
    · rfl
    · exact fun _ _ h => h
  | other _ => exact ⟨t, ht, rfl, hx⟩

/-- What a party decrypts as coming from another one was sent to it by this one. -/
theorem sys_received (hC : C.Lawful) {s s' : System P} (hs : SysReach s) {m p : P} {pt : Bytes}
    (h : SysStep s (.received m p (.ok pt)) s') :
    ∃ t ∈ s.chats, ∃ b c, t.party b = m ∧ t.party (!b) = p ∧ (c, pt) ∈ t.sent (!b) := by
  generalize he : SysEvent.received m p (.ok pt) = e at h
  cases h with
  | start => cases he
  | send => cases he
  | other => cases he
  | @deliver k t b i c pt' seed seeds hk hi h1 h2 h3 h4 =>
    injection he with he1 he2 he3
    refine ⟨t, List.mem_of_getElem? hk, b, c, he1.symm, he2.symm, ?_⟩
    obtain ⟨d1, d2⟩ := C87_conversation hC hs (List.mem_of_getElem? hk) hi h3 h4 seeds
    by_cases ha : i ∈ t.accepted b
    · have := (d2 ha (h2 ha)).1
      rw [← he3] at this
      cases this
    · have := d1 ha (h1 ha)
      rw [← he3] at this
      rw [Except.ok.inj this]
      exact List.mem_of_getElem? hi
  | @attack k t b type bytes seed seeds acc hk ha h1 h2 h3 h4 hr hpk =>
    injection he with he1 he2 he3
    obtain ⟨i, c, d1, _⟩ := C87_only_sent hC hs (List.mem_of_getElem? hk) ha h1 h2 h3 h4 he3.symm
    exact ⟨t, List.mem_of_getElem? hk, b, c, he1.symm, he2.symm, List.mem_of_getElem? d1⟩

omit C [DecidableEq P] in
theorem Spec.CreatedFor.more {n : SenderKeyName} {log log' : RoomLog P} {x : Bytes} (h : CreatedFor n log x) : CreatedFor n (log ++ log') x := by
  obtain ⟨e, h1, h2⟩ := h
  exact ⟨e, List.mem_append_left _ h1, h2⟩

omit C in
theorem Spec.CreatedFor.announced {n : SenderKeyName} {log : RoomLog P} {x : Bytes} (h : CreatedFor n log x)
    {d : SenderKeyDistributionMessage} (hd : SenderKeyDistributionMessage.parse x = .ok d) : ∃ k, AnnouncedAt n log k d := by
  obtain ⟨e, h1, rnd, d0, h2, h3, rfl⟩ := h
  obtain ⟨pre, post, rfl⟩ := List.append_of_mem h1
  exact ⟨_, pre, e, post, rnd, d0, rfl, h2, h3, hd, rfl⟩

structure SocietyInv (owner : SenderKeyName → P) (enc : SenderKeyName → Bytes → Bytes) (a : Society P) : Prop where
  sys : SysReach a.sys
  room : RoomReach owner a.groups a.log
  sent : ∀ t ∈ a.sys.chats, ∀ b c n x, (c, enc n x) ∈ t.sent b → owner n = t.party b → CreatedFor n a.log x
  inbox : ∀ m p pt, (p, pt) ∈ a.inbox m → ∃ t ∈ a.sys.chats, ∃ b c, t.party b = m ∧ t.party (!b) = p ∧ (c, pt) ∈ t.sent (!b)

theorem society_inv (hC : C.Lawful) {owner : SenderKeyName → P} {enc : SenderKeyName → Bytes → Bytes} {a : Society P}
    (h : SocietyReach owner enc a) : SocietyInv owner enc a := by
  induction h with
  | init => exact ⟨.init, .start, fun t ht => (List.not_mem_nil ht).elim, fun m p pt h => (List.not_mem_nil h).elim⟩
  | @step a a' _ hs ih =>
    cases hs with
    | @talk e sys hs hon =>
      refine ⟨.step ih.sys hs, ih.room, ?_, ?_⟩
      · intro t ht b c n x hx ho
        rcases sys_sent hs ht hx with ⟨u, hu, hp, hx⟩ | ⟨q, rfl⟩
        · exact ih.sent u hu b c n x hx (by rw [hp]; exact ho)
        · exact hon n x rfl ho
      · intro m p pt hm
        have old : (p, pt) ∈ a.inbox m →
            ∃ t ∈ sys.chats, ∃ b c, t.party b = m ∧ t.party (!b) = p ∧ (c, pt) ∈ t.sent (!b) := by
          intro hm
          obtain ⟨t, h1, b, c, h2, h3, h4⟩ := ih.inbox m p pt hm
          obtain ⟨t', q1, q2, q3⟩ := sys_kept hs h1 h4
          exact ⟨t', q1, b, c, by rw [q2]; exact h2, by rw [q2]; exact h3, q3⟩
        cases e with
        | sent => exact old hm
        | unseen => exact old hm
        | received m' p' r =>
          cases r with
          | error e => exact old hm
          | ok pt' =>
            have hm : (p, pt) ∈ upd a.inbox m' (a.inbox m' ++ [(p', pt')]) m := hm
            by_cases hmm : m = m'
            · subst hmm
              rw [upd_same] at hm
              rcases List.mem_append.1 hm with hm | hm
              · exact old hm
              · obtain ⟨rfl, rfl⟩ := Prod.mk.inj (List.mem_singleton.1 hm)
                obtain ⟨t, h1, b, c, h2, h3, h4⟩ := sys_received hC ih.sys hs
                obtain ⟨t', q1, q2, q3⟩ := sys_kept hs h1 h4
                exact ⟨t', q1, b, c, by rw [q2]; exact h2, by rw [q2]; exact h3, q3⟩
            · rw [upd_other _ _ hmm] at hm
              exact old hm
    | group m c hal =>
      refine ⟨ih.sys, ?_, fun t ht b c n x hx ho => (ih.sent t ht b c n x hx ho).more, ih.inbox⟩
      refine RoomReach.call m c ih.room ?_
      cases c with
      | process n d =>
        obtain ⟨x, h1, h2⟩ := hal
        obtain ⟨t, q1, b, c, q2, q3, q4⟩ := ih.inbox _ _ _ h1
        exact (ih.sent t q1 _ c n x q4 q3.symm).announced h2
      | encrypt n pt rand => exact hal
      | decrypt n b => exact hal
      | create n rnd => exact hal

/-- **C88, conversations.** What a party has decrypted as coming from another one is what this one sent to it, whatever the
attacker did. -/
theorem C88_inbox (hC : C.Lawful) {owner : SenderKeyName → P} {enc : SenderKeyName → Bytes → Bytes} {a : Society P}
    (h : SocietyReach owner enc a) {m p : P} {pt : Bytes} (hm : (p, pt) ∈ a.inbox m) :
    ∃ t ∈ a.sys.chats, ∃ b c, t.party b = m ∧ t.party (!b) = p ∧ (c, pt) ∈ t.sent (!b) :=
  (society_inv hC h).inbox m p pt hm

/-- **C88, the whole.** The conversations go as in C87 and the groups as in C72: that announcements arrive by a channel that nobody
else can write to is not assumed here but holds because they come in conversations. -/
theorem C88_society (hC : C.Lawful) {owner : SenderKeyName → P} {enc : SenderKeyName → Bytes → Bytes} {a : Society P}
    (h : SocietyReach owner enc a) : SysReach a.sys ∧ RoomReach owner a.groups a.log :=
  ⟨(society_inv hC h).sys, (society_inv hC h).room⟩

/-- **C88, what members read** under a name was sent by its owner, with this plaintext, and each message is read at most once. -/
theorem C88_genuine (hC : C.Lawful) {owner : SenderKeyName → P} {enc : SenderKeyName → Bytes → Bytes} {a : Society P}
    (h : SocietyReach owner enc a) (n : SenderKeyName) (m : P) :
    (∀ p ∈ readBy m n a.log, m ≠ owner n ∧ ∃ x ∈ sentUnder n a.log, SameBody p.1 x.bytes ∧ p.2 = x.plaintext) ∧
    (readBy m n a.log).Pairwise fun p q => ¬ SameBody p.1 q.1 := by
  have hr := (society_inv hC h).room
  refine ⟨fun p hp => ?_, C72_once hC owner a.groups a.log hr n m⟩
  obtain ⟨h1, i, k, x, d, rest, h2, h3, h4, _⟩ := C72_genuine hC owner a.groups a.log hr n m p hp
  exact ⟨h1, x, List.mem_of_getElem? h2, h3, h4⟩

/-- **C88, reading.** A member reads every message sent after the announcement it took up first, in any order, if it has not read
it before. -/
theorem C88_read (hC : C.Lawful) {owner : SenderKeyName → P} {enc : SenderKeyName → Bytes → Bytes} {a : Society P}
    (h : SocietyReach owner enc a) {n : SenderKeyName} {m : P} (hm : m ≠ owner n) {d : SenderKeyDistributionMessage}
    {rest : List SenderKeyDistributionMessage} (hd : heardBy m n a.log = d :: rest) {j : Nat} {y : GroupSent}
    (hy : (sentUnder n a.log)[j]? = some y) (hj : d.iteration ≤ j) (hnew : ∀ p ∈ readBy m n a.log, ¬ SameBody p.1 y.bytes) :
    (GroupCipher.decrypt (a.groups m) n y.bytes).result = .ok y.plaintext := by
  have hr := (society_inv hC h).room
  obtain ⟨k, h1, h2⟩ := C72_heard hC owner a.groups a.log hr n m hm d rest hd
  exact C72_read hC owner a.groups a.log hr n m hm d rest hd k h1 j y hy (h2 ▸ hj) hnew

omit C in
theorem heardBy_append (m : P) (n : SenderKeyName) (log log' : RoomLog P) :
    heardBy m n (log ++ log') = heardBy m n log ++ heardBy m n log' := List.filterMap_append

omit C in
theorem readBy_append (m : P) (n : SenderKeyName) (log log' : RoomLog P) :
    readBy m n (log ++ log') = readBy m n log ++ readBy m n log' := List.filterMap_append

omit C [DecidableEq P] in
theorem sentUnder_append (n : SenderKeyName) (log log' : RoomLog P) :
    sentUnder n (log ++ log') = sentUnder n log ++ sentUnder n log' := List.filterMap_append

/-- **C88, joining.** If the owner of a name has sent an announcement to a party in a conversation, then the party, having received
it for the first time and within the limits of C37, can process it and reads every message sent under the name since the announcement
was made. -/
theorem C88_join (hC : C.Lawful) {owner : SenderKeyName → P} {enc : SenderKeyName → Bytes → Bytes} {a : Society P}
    (h : SocietyReach owner enc a) {n : SenderKeyName} {k : Nat} {t : Chat P} (hk : a.sys.chats[k]? = some t) {b : Bool}
    (hb : t.party b ≠ owner n) (hown : t.party (!b) = owner n) {i : Nat} {c : Ciphertext} {x : Bytes}
    (hi : (t.sent (!b))[i]? = some (c, enc n x)) (hnew : i ∉ t.accepted b)
    (hlim : (t.net a.sys.world).inLimits t.cv b (header c)) {seed : Bytes} (hseed : seed.length = 32)
    (hfresh : C.genPub (C.genPriv seed) ∉ t.keys) {d : SenderKeyDistributionMessage}
    (hd : SenderKeyDistributionMessage.parse x = .ok d) (hun : heardBy (t.party b) n a.log = []) :
    ∃ a' a'', SocietyStep owner enc a a' ∧ SocietyStep owner enc a' a'' ∧
      a''.log = a.log ++ [⟨t.party b, .process n d, .ok .done⟩] ∧
      ∀ (j : Nat) (y : GroupSent), (sentUnder n a.log)[j]? = some y → d.iteration ≤ j →
        (GroupCipher.decrypt (a''.groups (t.party b)) n y.bytes).result = .ok y.plaintext := by
  have hinv := society_inv hC h
  have hok := (C87_conversation hC hinv.sys (List.mem_of_getElem? hk) hi hseed hfresh (fun _ => [])).1 hnew hlim
  have hstep := SysStepBy.deliver (A := fun t n b type bytes => Attack t.cv n b type bytes) (seeds := fun _ => []) hk hi (fun _ => hlim) (fun q => absurd q hnew) hseed hfresh
  have hcr := hinv.sent t (List.mem_of_getElem? hk) (!b) c n x (List.mem_of_getElem? hi) hown.symm
  obtain ⟨kk, han⟩ := hcr.announced hd
  obtain ⟨d0, hrun⟩ := hinv.room.running hC han
  obtain ⟨hdesc, hle⟩ := hrun.announced kk d han
  have h1 : d.id < 2 ^ 32 := by rw [hdesc.id]; exact hrun.id
  have h2 : d.iteration < 2 ^ 32 := by rw [hdesc.it]; exact Nat.lt_of_le_of_lt hle hrun.small
  rw [hok] at hstep
  obtain ⟨a', s1, e1, e2, e3⟩ : ∃ a', SocietyStep owner enc a a' ∧ a'.groups = a.groups ∧ a'.log = a.log ∧
      (owner n, enc n x) ∈ a'.inbox (t.party b) := by
    refine ⟨_, SocietyStep.talk hstep trivial, rfl, rfl, ?_⟩
    show (owner n, enc n x) ∈ upd a.inbox (t.party b) (a.inbox (t.party b) ++ [(t.party (!b), enc n x)]) (t.party b)
    rw [upd_same, hown]
    exact List.mem_append_right _ (List.mem_singleton.2 rfl)
  have hres : ((GroupCall.process n d).run (a'.groups (t.party b))).result = .ok .done := by
    rw [process_of (.processed h1 h2)]
  have s2 : SocietyStep owner enc a' _ := SocietyStep.group (t.party b) (.process n d) ⟨x, e3, hd⟩
  have hlog : a'.log ++ [⟨t.party b, .process n d, ((GroupCall.process n d).run (a'.groups (t.party b))).result⟩] =
      a.log ++ [⟨t.party b, .process n d, .ok .done⟩] := by rw [hres, e2]
  refine ⟨a', _, s1, s2, hlog, ?_⟩
  intro j y hy hj
  refine C88_read hC (.step (.step h s1) s2) hb (d := d) (rest := []) ?_ (j := j) ?_ hj ?_
  · show heardBy _ _ (a'.log ++ [_]) = _
    rw [hlog, heardBy_append, hun]
    simp [heardBy]
  · show (sentUnder n (a'.log ++ [_]))[j]? = _
    rw [hlog, sentUnder_append, List.getElem?_append_left (List.getElem?_eq_some_iff.1 hy).1]
    exact hy
  · show ∀ p ∈ readBy _ _ (a'.log ++ [_]), _
    rw [hlog, readBy_append]
    intro p hp
    exfalso
    rcases List.mem_append.1 hp with hp | hp
    · obtain ⟨_, _, _, _, _, _, _, _, _, q, _⟩ := C72_genuine hC owner a.groups a.log hinv.room n _ p hp
      rw [hun] at q
      cases q
    · simp [readBy] at hp

end
/-! ## Non-vacuity: the three parties over the toy primitives -/

section
attribute [local instance] toy
open Example Spec

/-- Alice owns all names. -/
def socOwner (_ : SenderKeyName) : Fin 3 := 0
/-- Announcements for `grp` begin with a one. -/
def socEnc (n : SenderKeyName) (x : Bytes) : Bytes := if n = grp then 1 :: x else [0]

def soc0 : Society (Fin 3) := ⟨sys2, fun _ => GroupStore.empty, [], fun _ => []⟩

def socSend (a : Society (Fin 3)) (k : Nat) (b : Bool) (pt : Bytes) : Option (Society (Fin 3)) :=
  (sysMove a.sys k b (fun cv n => convSend cv n b pt)).map fun s => ⟨s, a.groups, a.log, a.inbox⟩

def socDeliver (a : Society (Fin 3)) (k : Nat) (b : Bool) (i : Nat) (seed : Bytes) : Option (Society (Fin 3)) :=
  match a.sys.chats[k]? with
  | none => none
  | some t => match (t.sent (!b))[i]? with
    | none => none
    | some (c, _) => (sysMove a.sys k b (fun cv n => convDeliver cv n b i seed)).map fun s =>
        ⟨s, a.groups, a.log, noted a.inbox (.received (t.party b) (t.party !b)
          (receive (a.sys.world (t.party b)) (t.cv.addr b) c.getType c.serialize seed (fun _ => [])).result)⟩

def socCall (a : Society (Fin 3)) (m : Fin 3) (c : GroupCall) : Society (Fin 3) :=
  ⟨a.sys, fun x => if x = m then c.next (a.groups m) else a.groups x, a.log ++ [⟨m, c, (c.run (a.groups m)).result⟩], a.inbox⟩

def createdB (log : RoomLog (Fin 3)) (x : Bytes) : Bool :=
  log.any fun e => match e.call, e.reply with
    | .create n _, .ok (.distribution d) => decide (n = grp ∧ d.serialized = x)
    | _, _ => false

theorem created_of {log : RoomLog (Fin 3)} {x : Bytes} (h : createdB log x = true) : CreatedFor grp log x := by
  obtain ⟨⟨m, c, r⟩, h1, h2⟩ := List.any_eq_true.1 h
  cases c with
  | create n rnd =>
    cases r with
    | error e => cases h2
    | ok r =>
      cases r with
      | distribution d =>
        obtain ⟨rfl, h3⟩ := of_decide_eq_true h2
        exact ⟨_, h1, rnd, d, rfl, rfl, h3⟩
      | bytes b => cases h2
      | done => cases h2
  | encrypt n pt rand => cases h2
  | decrypt n b => cases h2
  | process n d => cases h2

theorem socSend_step {a a' : Society (Fin 3)} {k : Nat} {b : Bool} {x : Bytes} (hx : createdB a.log x = true)
    (h : socSend a k b (1 :: x) = some a') : SocietyStep socOwner socEnc a a' := by
  obtain ⟨s, hs, rfl⟩ := Option.map_eq_some_iff.1 h
  obtain ⟨t, ht, hs⟩ := sysSend_step hs
  refine SocietyStep.talk hs ?_
  intro n x' he _
  unfold socEnc at he
  split at he
  · rename_i hn
    injection he with _ he
    rw [hn, ← he]
    exact created_of hx
  · injection he with he _
    exact absurd he (by decide)

theorem socDeliver_step {a a' : Society (Fin 3)} {k i : Nat} {b : Bool} {seed : Bytes}
    (h : socDeliver a k b i seed = some a') : SocietyStep socOwner socEnc a a' := by
  unfold socDeliver at h
  split at h
  · cases h
  · rename_i t ht
    split at h
    · cases h
    · rename_i c pt hc
      obtain ⟨s, hs, rfl⟩ := Option.map_eq_some_iff.1 h
      obtain ⟨t', c', pt', ht', hc', hs⟩ := sysDeliver_step hs
      rw [ht] at ht'
      obtain rfl := Option.some.inj ht'
      rw [hc] at hc'
      obtain ⟨rfl, rfl⟩ := Prod.mk.inj (Option.some.inj hc')
      exact SocietyStep.talk hs trivial

/-- Alice creates a key, sends it to Bob and sends to the group; Bob gets and processes the announcement and reads the message; then
Alice sends to the group again. -/
def soc1 : Society (Fin 3) := socCall soc0 0 (.create grp grpRand)
def soc2 : Option (Society (Fin 3)) :=
  (socSend soc1 0 true (1 :: grpDist.serialized)).bind fun a => socDeliver a 0 false 0 (key 51)
def soc3 (a : Society (Fin 3)) : Society (Fin 3) := socCall a 1 (.process grp grpDist)
def soc4 (a : Society (Fin 3)) : Society (Fin 3) := socCall (soc3 a) 0 (.encrypt grp [1] grpSig)
def soc5 (a : Society (Fin 3)) : Society (Fin 3) := socCall (soc4 a) 1 (.decrypt grp (grpMsg 0))

def socCheck (a : Society (Fin 3)) : Bool :=
  a.inbox 1 == [(0, 1 :: grpDist.serialized)] && sentUnder grp (soc4 a).log == [⟨grp, [1], grpMsg 0⟩] &&
    readBy 1 grp (soc5 a).log == [(grpMsg 0, [1])] && decide (64 < (grpMsg 0).length)

theorem soc_check : soc2.any socCheck = true := by decide +kernel

theorem soc_reach {a : Society (Fin 3)} (h : soc2 = some a) (hc : socCheck a = true) : SocietyReach socOwner socEnc (soc5 a) := by
  have r0 : SocietyReach socOwner socEnc soc0 :=
    .step (.step (.init (world := sys0.world)) (.talk (a := ⟨sys0, fun _ => GroupStore.empty, [], fun _ => []⟩) (e := .unseen) sys_start1 trivial))
      (.talk (a := ⟨sys1, fun _ => GroupStore.empty, [], fun _ => []⟩) (e := .unseen) sys_start2 trivial)
  have r1 : SocietyReach socOwner socEnc soc1 :=
    .step r0 (.group 0 (.create grp grpRand) ⟨rfl, by decide +kernel, by decide +kernel⟩)
  unfold soc2 at h
  obtain ⟨a1, h1, h2⟩ := Option.bind_eq_some_iff.1 h
  have r2 : SocietyReach socOwner socEnc a :=
    .step (.step r1 (socSend_step (by decide +kernel) h1)) (socDeliver_step h2)
  unfold socCheck at hc
  simp only [Bool.and_eq_true, beq_iff_eq, decide_eq_true_eq] at hc
  have r3 : SocietyReach socOwner socEnc (soc3 a) :=
    .step r2 (.group 1 (.process grp grpDist) ⟨grpDist.serialized, by
      rw [hc.1.1.1]
      exact List.mem_singleton.2 rfl, by decide +kernel⟩)
  have r4 : SocietyReach socOwner socEnc (soc4 a) :=
    .step r3 (.group 0 (.encrypt grp [1] grpSig) ⟨by decide +kernel, by decide +kernel⟩)
  refine .step r4 (.group 1 (.decrypt grp (grpMsg 0)) ?_)
  intro x _
  refine ⟨_, ?_, sameBody_refl hc.2⟩
  rw [hc.1.1.2]
  exact List.mem_singleton.2 rfl

/-- The hypotheses of C88 are met; Bob has read what Alice sent to the group. -/
example : ∃ a : Society (Fin 3), SocietyReach socOwner socEnc a ∧ readBy 1 grp a.log = [(grpMsg 0, [1])] := by
  have h := soc_check
  cases hr : soc2 with
  | none => rw [hr] at h; cases h
  | some a =>
    rw [hr] at h
    refine ⟨soc5 a, soc_reach hr h, ?_⟩
    have h : socCheck a = true := h
    unfold socCheck at h
    simp only [Bool.and_eq_true, beq_iff_eq, decide_eq_true_eq] at h
    exact h.1.2

end

end Axolotl
