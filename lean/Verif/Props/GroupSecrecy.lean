import Verif.Proofs.GroupKept
import Verif.Proofs.GroupDerive

/-! # C90: who can read and sign group messages after records or announcements have leaked -/

namespace Axolotl
section
variable [C : Crypto]
open Spec
variable {M : Type} [DecidableEq M]

theorem value_groupChain (K : Bytes) (p : ECPriv) (pt : Nat → Bytes) (rand : Bytes → Bytes) (k : Nat) :
    (GTerm.chain k).value K p pt rand = chainAt K k := by
  induction k with
  | zero => rfl
  | succ k ih =>
    show C.hmac ((GTerm.chain k).value K p pt rand) [2] = _
    rw [ih]; rfl

theorem value_groupSeed (K : Bytes) (p : ECPriv) (pt : Nat → Bytes) (rand : Bytes → Bytes) (k : Nat) :
    (GTerm.messageSeed k).value K p pt rand = groupSeed (chainAt K k) := by
  show C.hmac ((GTerm.chain k).value K p pt rand) [1] = _
  rw [value_groupChain]; rfl

theorem value_groupKeys (K : Bytes) (p : ECPriv) (pt : Nat → Bytes) (rand : Bytes → Bytes) (k : Nat) :
    (((GTerm.keys k).value K p pt rand).take 48).drop 16 = groupCipherKey (groupSeed (chainAt K k)) ∧
    ((GTerm.keys k).value K p pt rand).take 16 = groupIv (groupSeed (chainAt K k)) := by
  have h : ((GTerm.keys k).value K p pt rand).take 48 = groupOkm (groupSeed (chainAt K k)) := by
    have e : (GTerm.keys k).value K p pt rand =
        hkdfT (C.hmac (List.replicate 32 0) (groupSeed (chainAt K k))) groupInfo 1 ++
        hkdfT (C.hmac (List.replicate 32 0) (groupSeed (chainAt K k))) groupInfo 2 := by
      rw [← value_groupSeed K p pt rand]
      simp only [GTerm.keys, GTerm.block1, GTerm.block2, GTerm.material, GTerm.value, hkdfT, List.nil_append, List.append_assoc]
      rfl
    unfold groupOkm hkdf
    rw [e, if_pos rfl]
    have : (48 + 31) / 32 = 2 := by decide
    rw [this]
    simp [List.range_succ]
  unfold groupCipherKey groupIv
  rw [← h]
  exact ⟨rfl, by rw [List.take_take]; rfl⟩

/-- The records of a running name. -/
theorem RoomRunning.records {owner : SenderKeyName → M} {S : M → GroupStore} {log : RoomLog M} {n : SenderKeyName}
    {d0 : SenderKeyDistributionMessage} (h : RoomRunning owner S log n d0) (hk : GroupKept owner S log n) (m : M) :
    (m = owner n ∧ ∃ s, (S m n).senderKeyStates = s :: (heardBy m n log).map addedState ∧ OwnerState d0 (sentUnder n log).length s) ∨
    (m ≠ owner n ∧ heardBy m n log = [] ∧ (S m n).senderKeyStates = []) ∨
    (m ≠ owner n ∧ ∃ d rest s, heardBy m n log = d :: rest ∧ (S m n).senderKeyStates = s :: rest.map addedState ∧
      Holds d (HasRead (sentUnder n log) (readBy m n log)) s ∧ NotBefore d.iteration s) := by
  have ht := hk.tail m
  by_cases hm : m = owner n
  · left
    refine ⟨hm, ?_⟩
    obtain ⟨s, hs, ho⟩ := h.own
    rw [if_pos hm] at ht
    rw [← hm] at hs
    unfold sendingState at hs
    refine ⟨s, ?_, ho⟩
    cases hl : (S m n).senderKeyStates with
    | nil => rw [hl] at hs; cases hs
    | cons a l =>
      rw [hl] at hs ht
      cases hs
      rw [← ht]; rfl
  · right
    rw [if_neg hm] at ht
    cases hh : heardBy m n log with
    | nil => exact .inl ⟨hm, rfl, (h.member m hm).unheard hh⟩
    | cons d rest =>
      rw [hh] at ht
      obtain ⟨⟨k, hd⟩, ⟨s, hs, hholds⟩, s', hs', hb⟩ := (h.member m hm).holds d rest hh
      obtain rfl : s' = s := Option.some.inj (hs'.symm.trans hs)
      obtain ⟨s0, hs0, ho⟩ := h.own
      refine .inr ⟨hm, d, rest, s', rfl, ?_, hholds, hb⟩
      cases hl : (S m n).senderKeyStates with
      | nil => unfold stateFor at hs; rw [hl] at hs; cases hs
      | cons a l =>
        rw [hl] at ht
        have ha : a.senderKeyId.getD 0 = d.id := by
          rw [(h.announced k d hd).1.id, ← ho.id]
          refine hk.ids m _ (by unfold stateIds; rw [hl]; simp) _ ?_
          unfold sendingState at hs0
          unfold stateIds
          rw [List.head?_map, hs0]; rfl
        have hs2 := SenderKeyRecord.sendingState_stateFor (r := S m n) (s := a) (by unfold sendingState; rw [hl]; rfl)
        rw [ha, hs] at hs2
        cases hs2
        have ht : l = rest.map addedState := ht
        rw [ht]

omit C [DecidableEq M] in
theorem mem_added {s : SenderKeyState} {t : SenderKeyState} {ds : List SenderKeyDistributionMessage}
    (h : t ∈ s :: ds.map addedState) : t = s ∨ ∃ d ∈ ds, t = addedState d := by
  rcases List.mem_cons.1 h with h | h
  · exact .inl h
  · obtain ⟨d, h1, h2⟩ := List.mem_map.1 h
    exact .inr ⟨d, h1, h2.symm⟩

/-- The names of the keys fit the records, announcements and messages. -/
theorem RoomRunning.describes {owner : SenderKeyName → M} {S : M → GroupStore} {log : RoomLog M} {n : SenderKeyName}
    {d0 : SenderKeyDistributionMessage} (h : RoomRunning owner S log n d0) (hk : GroupKept owner S log n) :
    GroupDescribes d0.chainKey d0.signatureKey n S log := by
  have hadd : ∀ m, ∀ d ∈ heardBy m n log, chainKeyOf (addedState d) = chainAt d0.chainKey (iterationOf (addedState d)) := by
    intro m d hd
    obtain ⟨k, hk⟩ := hk.heard m d hd
    have := (h.announced k d hk).1
    show d.chainKey = chainAt d0.chainKey d.iteration
    rw [this.it]; exact this.chain
  refine ⟨?_, ?_, ?_, ?_, ?_⟩
  · intro m s hs
    rw [value_groupChain]
    rcases h.records hk m with ⟨_, s0, e, ho⟩ | ⟨_, _, e⟩ | ⟨_, d, rest, s0, hh, e, hho, _⟩
    · rw [e] at hs
      rcases mem_added hs with rfl | ⟨d, hd, rfl⟩
      · rw [ho.chain, ho.pos]
      · exact hadd m d hd
    · rw [e] at hs; cases hs
    · rw [e] at hs
      rcases mem_added hs with rfl | ⟨d', hd', rfl⟩
      · obtain ⟨k, hk⟩ := hk.heard m d (by rw [hh]; exact List.mem_cons_self)
        have hde := (h.announced k d hk).1
        have h1 := hho.chain.1
        rw [hho.chain.2, hde.chain, chainAt_add, hde.it]
        rw [hde.it] at h1
        congr 1; omega
      · exact hadd m d' (by rw [hh]; exact List.mem_cons_of_mem _ hd')
  · intro m s hs k hkk
    rw [value_groupSeed]
    rcases h.records hk m with ⟨_, s0, e, ho⟩ | ⟨_, _, e⟩ | ⟨_, d, rest, s0, hh, e, hho, hnb⟩
    · rw [e] at hs
      rcases mem_added hs with rfl | ⟨d, hd, rfl⟩
      · rw [ho.keys] at hkk; cases hkk
      · cases hkk
    · rw [e] at hs; cases hs
    · rw [e] at hs
      rcases mem_added hs with rfl | ⟨d', hd', rfl⟩
      · obtain ⟨k', hk⟩ := hk.heard m d (by rw [hh]; exact List.mem_cons_self)
        have hde := (h.announced k' d hk).1
        have h1 : d.iteration ≤ k.iteration.getD 0 := hnb.2 _ (List.mem_map.2 ⟨k, hkk, rfl⟩)
        rw [hho.seeds k hkk, hde.chain, chainAt_add, hde.it]
        rw [hde.it] at h1
        congr 3; omega
      · cases hkk
  · intro m s hs hne
    by_cases hm : m = owner n
    · rcases h.records hk m with ⟨_, s0, e, ho⟩ | ⟨q, _⟩ | ⟨q, _⟩
      · rw [e] at hs
        rcases mem_added hs with rfl | ⟨d, hd, rfl⟩
        · obtain ⟨seed, _, q1, _, q2⟩ := ho.pair
          rw [q2, ← q1]; rfl
        · exact absurd rfl hne
      · exact absurd hm q
      · exact absurd hm q
    · exact absurd ((h.member m hm).noPriv s hs) hne
  · intro k d hd
    have := (h.announced k d hd).1
    exact ⟨this.it, this.sig, by rw [value_groupChain]; exact this.chain⟩
  · intro i x hx
    obtain ⟨_, m, h1, h2⟩ := h.sent i x hx
    refine ⟨m, h1.parses, h2, h1.signed, ?_⟩
    rw [(value_groupKeys _ _ _ _ _).1, (value_groupKeys _ _ _ _ _).2]
    have := h1.opens
    rw [h2, h.it, Nat.sub_zero] at this
    exact this

omit C in
/-- **C90**, in general: from any leak the attacker gets exactly these plaintexts, message keys and chain keys, whatever they
compute; they have the signing key only if it has leaked, and without it the only signatures they have are those they saw. -/
theorem C90_exact (l : GLeak) (headers : Nat → Bytes) (count : Nat) :
    (∀ i, GDerives (l.Has headers count) (.text i) ↔ l.texts i ∨ (i < count ∧ l.reads i)) ∧
    (∀ i, GDerives (l.Has headers count) (.keys i) ↔ l.reads i) ∧
    (∀ k, GDerives (l.Has headers count) (.chain k) ↔ ∃ k' ≤ k, l.chains k') ∧
    (GDerives (l.Has headers count) .signing ↔ l.signing) ∧
    (∀ m, GDerives (l.Has headers count) (.sig m) ↔
      (∃ i < count, m = .body i (headers i)) ∨ (l.signing ∧ GDerives (l.Has headers count) m)) :=
  ⟨gderives_text, gderives_keys, gderives_chain, gderives_signing, gderives_sig⟩

/-- Which messages the records of the stolen members open. -/
theorem RoomRunning.opens {owner : SenderKeyName → M} {S : M → GroupStore} {log : RoomLog M} {n : SenderKeyName}
    {d0 d0' : SenderKeyDistributionMessage} (h : RoomRunning owner S log n d0) (hk : GroupKept owner S log n) (more : RoomLog M)
    (hnum : Numbered d0' (sentUnder n (log ++ more))) {i : Nat} {x : GroupSent}
    (hx : (sentUnder n (log ++ more))[i]? = some x) (m : M) :
    Exposes owner n log m i x.bytes ↔ ∃ s ∈ (S m n).senderKeyStates, iterationOf s ≤ i ∨ i ∈ pending s := by
  have hsplit : sentUnder n (log ++ more) = sentUnder n log ++ sentUnder n more := by
    unfold sentUnder; exact List.filterMap_append
  have hup : ∀ (j : Nat) y, (sentUnder n log)[j]? = some y → (sentUnder n (log ++ more))[j]? = some y := by
    intro j y hy
    obtain ⟨hj, _⟩ := List.getElem?_eq_some_iff.1 hy
    rw [hsplit, List.getElem?_append_left hj]; exact hy
  unfold Exposes
  rcases h.records hk m with ⟨hm, s, e, ho⟩ | ⟨hm, hh, e⟩ | ⟨hm, d, rest, s, hh, e, hho, hnb⟩
  · rw [if_pos hm, e]
    have hp : pending s = [] := by unfold pending; rw [ho.keys]; rfl
    constructor
    · rintro (q | ⟨d, q1, q2⟩)
      · exact ⟨s, List.mem_cons_self, .inl (by rw [ho.pos]; exact q)⟩
      · exact ⟨addedState d, List.mem_cons_of_mem _ (List.mem_map.2 ⟨d, q1, rfl⟩), .inl q2⟩
    · rintro ⟨t, q1, q2⟩
      rcases mem_added q1 with rfl | ⟨d, hd, rfl⟩
      · rw [hp, ho.pos] at q2
        exact .inl (q2.resolve_right List.not_mem_nil)
      · exact .inr ⟨d, hd, q2.resolve_right List.not_mem_nil⟩
  · rw [if_neg hm, e, hh]
    constructor
    · rintro ⟨d, rest, q, _⟩; cases q
    · rintro ⟨t, q, _⟩; cases q
  · rw [if_neg hm, e, hh]
    have hread : (∀ p ∈ readBy m n log, ¬ SameBody p.1 x.bytes) ↔ ¬ HasRead (sentUnder n log) (readBy m n log) i := by
      constructor
      · rintro q ⟨y, p, q1, q2, q3⟩
        rw [hup i y q1] at hx
        cases hx
        exact q p q2 q3
      · intro q p hp hpx
        obtain ⟨j, y, _, _, r1, r2, _⟩ := (h.member m hm).reads p hp
        obtain rfl := hnum.same hx (hup j y r1) (hpx.symm.trans r2)
        exact q ⟨y, p, r1, hp, r2⟩
    have hhead : (d.iteration ≤ i ∧ ∀ p ∈ readBy m n log, ¬ SameBody p.1 x.bytes) ↔ (iterationOf s ≤ i ∨ i ∈ pending s) := by
      rw [hread]
      constructor
      · rintro ⟨q1, q2⟩
        rw [hho.used i q1] at q2
        by_cases hlt : iterationOf s ≤ i
        · exact .inl hlt
        · exact .inr (Decidable.byContradiction fun hpn => q2 ⟨by omega, hpn⟩)
      · intro q
        have hle : d.iteration ≤ i := by
          rcases q with q | q
          · exact Nat.le_trans hnb.1 q
          · exact hnb.2 i q
        refine ⟨hle, ?_⟩
        rw [hho.used i hle]
        rintro ⟨q1, q2⟩
        rcases q with q | q
        · omega
        · exact q2 q
    constructor
    · rintro ⟨d1, rest1, q, q'⟩
      cases q
      rcases q' with q' | ⟨d', q1, q2⟩
      · exact ⟨s, List.mem_cons_self, hhead.1 q'⟩
      · exact ⟨addedState d', List.mem_cons_of_mem _ (List.mem_map.2 ⟨d', q1, rfl⟩), .inl q2⟩
    · rintro ⟨t, q1, q2⟩
      refine ⟨d, rest, rfl, ?_⟩
      rcases mem_added q1 with rfl | ⟨d', hd', rfl⟩
      · exact .inl (hhead.2 q2)
      · exact .inr ⟨d', hd', q2.resolve_right List.not_mem_nil⟩

theorem theft_reads {owner : SenderKeyName → M} {S : M → GroupStore} {log : RoomLog M} {n : SenderKeyName}
    {d0 d0' : SenderKeyDistributionMessage} (h : RoomRunning owner S log n d0) (hk : GroupKept owner S log n) (more : RoomLog M)
    (hnum : Numbered d0' (sentUnder n (log ++ more))) {i : Nat} {x : GroupSent}
    (hx : (sentUnder n (log ++ more))[i]? = some x) (T : M → Prop) (intercepted texts : Nat → Prop) :
    (groupTheft n S T intercepted texts).reads i ↔
      (∃ k ≤ i, intercepted k) ∨ ∃ m, T m ∧ Exposes owner n log m i x.bytes := by
  constructor
  · rintro (⟨m, s, h1, h2, h3⟩ | ⟨k, h1, h2 | ⟨m, s, h2, h3, h4⟩⟩)
    · exact .inr ⟨m, h1, (h.opens hk more hnum hx m).2 ⟨s, h2, .inr h3⟩⟩
    · exact .inl ⟨k, h1, h2⟩
    · exact .inr ⟨m, h2, (h.opens hk more hnum hx m).2 ⟨s, h3, .inl (by omega)⟩⟩
  · rintro (⟨k, h1, h2⟩ | ⟨m, h1, h2⟩)
    · exact .inr ⟨k, h1, .inl h2⟩
    · obtain ⟨s, h3, h4 | h4⟩ := (h.opens hk more hnum hx m).1 h2
      · exact .inr ⟨_, h4, .inr ⟨m, s, h1, h3, rfl⟩⟩
      · exact .inl ⟨m, s, h1, h3, h4⟩

theorem first_announced (hC : C.Lawful) {owner : SenderKeyName → M} {S : M → GroupStore} {log : RoomLog M}
    (h : RoomReach owner S log) {n : SenderKeyName} {d : SenderKeyDistributionMessage} (hd : AnnouncedAt n log 0 d) :
    ∃ d0, RoomRunning owner S log n d0 ∧ d0.chainKey = d.chainKey ∧ d0.signatureKey = d.signatureKey := by
  obtain ⟨d0, hr⟩ := h.running hC hd
  have := (hr.announced 0 d hd).1
  exact ⟨d0, hr, this.chain.symm, this.sig.symm⟩

/-- **C90.**  Once the first announcement `d` of a name has been made, the stored records, announcements and messages are what
the terms say, at that moment and at any later one, with the chain key and the public signing key of `d`. -/
theorem C90_describes (hC : C.Lawful) (owner : SenderKeyName → M) (S : M → GroupStore) (log : RoomLog M)
    (h : RoomReach owner S log) (n : SenderKeyName) (d : SenderKeyDistributionMessage) (hd : AnnouncedAt n log 0 d) :
    GroupDescribes d.chainKey d.signatureKey n S log := by
  obtain ⟨d0, hr, e1, e2⟩ := first_announced hC h hd
  rw [← e1, ← e2]
  exact hr.describes (h.kept hC n)

/-- **C90.**  Before anything has been sent or taken up under a name its key has been announced, with no messages sent. -/
theorem C90_first (hC : C.Lawful) (owner : SenderKeyName → M) (S : M → GroupStore) (log : RoomLog M) (h : RoomReach owner S log)
    (n : SenderKeyName) (hn : sentUnder n log ≠ [] ∨ ∃ m, heardBy m n log ≠ [] ∨ (S m n).senderKeyStates ≠ []) :
    ∃ d, AnnouncedAt n log 0 d := by
  rcases h.inv hC n with q | ⟨d0, q⟩
  · rcases hn with hn | ⟨m, hn | hn⟩
    · exact absurd q.sent hn
    · exact absurd (q.heard m) hn
    · exact absurd (q.states m) hn
  · obtain ⟨s, hs, _⟩ := q.own
    exact (h.kept hC n).first fun r => by rw [sendingState_none.2 r] at hs; cases hs

/-- **C90.**  Suppose an attacker reads the records of the members in `T` at some moment, gets hold of the announcements made
after `k` messages for `k` in `intercepted`, sees all messages sent before and after this moment, and gets any other plaintexts.
Then they can read a message exactly if it was sent after an intercepted announcement, or the record of one of these members
opens it, going by what this member has done until then. -/
theorem C90_theft (hC : C.Lawful) (owner : SenderKeyName → M) (S S' : M → GroupStore) (log more : RoomLog M)
    (h : RoomReach owner S log) (h' : RoomReach owner S' (log ++ more)) (n : SenderKeyName)
    (T : M → Prop) (intercepted texts : Nat → Prop) (headers : Nat → Bytes) (d : SenderKeyDistributionMessage)
    (hd : AnnouncedAt n log 0 d) (i : Nat) (x : GroupSent)
    (hx : (sentUnder n (log ++ more))[i]? = some x) (ht : ¬ texts i) :
    GDerives ((groupTheft n S T intercepted texts).Has headers (sentUnder n (log ++ more)).length) (.text i) ↔
      (∃ k ≤ i, intercepted k) ∨ ∃ m, T m ∧ Exposes owner n log m i x.bytes := by
  obtain ⟨d0, hr, _⟩ := first_announced hC h hd
  obtain ⟨d0', hr', _⟩ := first_announced hC h' (announced_later hd more)
  rw [gderives_text, theft_reads hr (h.kept hC n) more hr'.sent hx]
  obtain ⟨hi, _⟩ := List.getElem?_eq_some_iff.1 hx
  constructor
  · rintro (q | q)
    · exact absurd q ht
    · exact q.2
  · exact fun q => .inr ⟨hi, q⟩

/-- **C90**, forward secrecy: if no announcement leaks, each stolen member has taken up at most one, and the
owner none of its own, then a message stays secret that was sent, and read by each stolen member that could read it, before the
theft.  It need not for members who have taken up a second announcement of the same key (`C90_forward_false`). -/
theorem C90_forward (hC : C.Lawful) (owner : SenderKeyName → M) (S S' : M → GroupStore) (log more : RoomLog M)
    (h : RoomReach owner S log) (h' : RoomReach owner S' (log ++ more)) (n : SenderKeyName)
    (T : M → Prop) (texts : Nat → Prop) (headers : Nat → Bytes) (d : SenderKeyDistributionMessage)
    (hd : AnnouncedAt n log 0 d) (i : Nat) (x : GroupSent)
    (hx : (sentUnder n log)[i]? = some x) (ht : ¬ texts i)
    (hone : ∀ m, T m → m ≠ owner n → (heardBy m n log).length ≤ 1) (hown : T (owner n) → heardBy (owner n) n log = [])
    (hread : ∀ m, T m → m ≠ owner n → ∀ d ∈ heardBy m n log, d.iteration ≤ i → ∃ p ∈ readBy m n log, SameBody p.1 x.bytes) :
    ¬ GDerives ((groupTheft n S T (fun _ => False) texts).Has headers (sentUnder n (log ++ more)).length) (.text i) := by
  obtain ⟨hi, _⟩ := List.getElem?_eq_some_iff.1 hx
  have hx' : (sentUnder n (log ++ more))[i]? = some x := by
    have hsplit : sentUnder n (log ++ more) = sentUnder n log ++ sentUnder n more := by
      unfold sentUnder; exact List.filterMap_append
    rw [hsplit, List.getElem?_append_left hi]; exact hx
  rw [C90_theft hC owner S S' log more h h' n T _ texts headers d hd i x hx' ht]
  rintro (⟨_, _, q⟩ | ⟨m, q1, q2⟩)
  · exact q
  · unfold Exposes at q2
    by_cases hm : m = owner n
    · rw [if_pos hm] at q2
      subst hm
      rw [hown q1] at q2
      rcases q2 with q2 | ⟨_, q2, _⟩
      · omega
      · cases q2
    · rw [if_neg hm] at q2
      obtain ⟨d1, rest, e, q⟩ := q2
      have hl := hone m q1 hm
      rw [e] at hl
      obtain rfl : rest = [] := by
        cases rest with
        | nil => rfl
        | cons a l => simp at hl
      rcases q with ⟨q2, q3⟩ | ⟨_, q2, _⟩
      · obtain ⟨p, r1, r2⟩ := hread m q1 hm d1 (by rw [e]; exact List.mem_cons_self) q2
        exact q3 p r1 r2
      · cases q2

/-- **C90**, no healing: whoever has read the record of the owner, or of a member who can read messages, can read every message
that is sent after that, forever. -/
theorem C90_no_healing (hC : C.Lawful) (owner : SenderKeyName → M) (S S' : M → GroupStore) (log more : RoomLog M)
    (h : RoomReach owner S log) (h' : RoomReach owner S' (log ++ more)) (n : SenderKeyName)
    (T : M → Prop) (intercepted texts : Nat → Prop) (headers : Nat → Bytes) (m : M) (hm : T m)
    (hst : (S m n).senderKeyStates ≠ []) (i : Nat) (hi : (sentUnder n log).length ≤ i)
    (hi' : i < (sentUnder n (log ++ more)).length) :
    GDerives ((groupTheft n S T intercepted texts).Has headers (sentUnder n (log ++ more)).length) (.text i) := by
  obtain ⟨d, hd⟩ := C90_first hC owner S log h n (.inr ⟨m, .inr hst⟩)
  obtain ⟨d0, hr, _⟩ := first_announced hC h hd
  obtain ⟨d0', hr', _⟩ := first_announced hC h' (announced_later hd more)
  have hx : (sentUnder n (log ++ more))[i]? = some (sentUnder n (log ++ more))[i] := List.getElem?_eq_getElem hi'
  rw [gderives_text, theft_reads hr (h.kept hC n) more hr'.sent hx]
  refine .inr ⟨hi', .inr ⟨m, hm, ?_⟩⟩
  unfold Exposes
  by_cases ho : m = owner n
  · rw [if_pos ho]; exact .inl hi
  · rw [if_neg ho]
    rcases hr.records (h.kept hC n) m with ⟨q, _⟩ | ⟨_, _, q⟩ | ⟨_, d1, rest, s, hh, _⟩
    · exact absurd q ho
    · exact absurd q hst
    · refine ⟨d1, rest, hh, .inl ⟨?_, ?_⟩⟩
      · obtain ⟨k, hk⟩ := (h.kept hC n).heard m d1 (by rw [hh]; exact List.mem_cons_self)
        have := hr.announced k d1 hk
        have := this.1.it
        omega
      · intro p hp hpx
        obtain ⟨j, y, _, _, r1, r2, _⟩ := (hr.member m ho).reads p hp
        obtain ⟨hj, _⟩ := List.getElem?_eq_some_iff.1 r1
        have hsplit : sentUnder n (log ++ more) = sentUnder n log ++ sentUnder n more := by
          unfold sentUnder; exact List.filterMap_append
        have r1' : (sentUnder n (log ++ more))[j]? = some y := by
          rw [hsplit, List.getElem?_append_left hj]; exact r1
        have := hr'.sent.same hx r1' (hpx.symm.trans r2)
        omega

/-- **C90.**  The signing key is stolen exactly if the owner's record is; all other records let nobody sign anything. -/
theorem C90_signing (hC : C.Lawful) (owner : SenderKeyName → M) (S : M → GroupStore) (log more : RoomLog M)
    (h : RoomReach owner S log) (n : SenderKeyName) (T : M → Prop) (intercepted texts : Nat → Prop) (headers : Nat → Bytes)
    (d : SenderKeyDistributionMessage) (hd : AnnouncedAt n log 0 d) (t : GTerm) :
    GDerives ((groupTheft n S T intercepted texts).Has headers (sentUnder n (log ++ more)).length) (.sig t) ↔
      (∃ i < (sentUnder n (log ++ more)).length, t = .body i (headers i)) ∨ (T (owner n) ∧
        GDerives ((groupTheft n S T intercepted texts).Has headers (sentUnder n (log ++ more)).length) t) := by
  rw [gderives_sig]
  have key : (groupTheft n S T intercepted texts).signing ↔ T (owner n) := by
    obtain ⟨d0, hr, _⟩ := first_announced hC h hd
    constructor
    · rintro ⟨m, s, h1, h2, h3⟩
      by_cases hm : m = owner n
      · rw [← hm]; exact h1
      · exact absurd ((hr.member m hm).noPriv s h2) h3
    · intro q
      obtain ⟨s, hs, ho⟩ := hr.own
      refine ⟨owner n, s, q, List.mem_of_mem_head? hs, ?_⟩
      obtain ⟨seed, hl, e, _⟩ := ho.pair
      have : (SenderKeyState.getSigningKeyPrivate s).length = 32 := by rw [e]; exact hC.genPriv_len _ hl
      intro r
      have r : SenderKeyState.getSigningKeyPrivate s = [] := r
      rw [r] at this
      cases this
  rw [key]

end

/-! ## Non-vacuity, and the case in which forward secrecy fails -/

section
attribute [local instance] toy
open Example Spec

/-- Member 1 takes up the announcement twice, then reads the first message; member 2 takes it up once and reads it as well; another
message is sent. -/
def Example.twiceCalls : List (Nat × GroupCall) :=
  [(0, .create grp grpRand), (1, .process grp grpDist), (1, .process grp grpDist), (2, .process grp grpDist),
   (0, .encrypt grp [1] grpSig), (1, .decrypt grp (grpMsg 0)), (2, .decrypt grp (grpMsg 0)), (0, .encrypt grp [2, 2] grpSig)]

theorem Example.twice_allowed (i : Nat) (hi : i < 8) : RoomAllowed roomOwner (roomRun (twiceCalls.take i)).2 twiceCalls[i].1
    twiceCalls[i].2 (twiceCalls[i].2.run ((roomRun (twiceCalls.take i)).1 twiceCalls[i].1)).result := by
  have : i = 0 ∨ i = 1 ∨ i = 2 ∨ i = 3 ∨ i = 4 ∨ i = 5 ∨ i = 6 ∨ i = 7 := by omega
  rcases this with rfl | rfl | rfl | rfl | rfl | rfl | rfl | rfl
  · exact ⟨rfl, by decide +kernel, by decide +kernel⟩
  · exact ⟨0, announced_index 0 0 (by decide +kernel)⟩
  · exact ⟨0, announced_index 0 0 (by decide +kernel)⟩
  · exact ⟨0, announced_index 0 0 (by decide +kernel)⟩
  · exact ⟨by decide +kernel, by decide +kernel⟩
  · intro x _
    have hmem : (⟨grp, [1], grpMsg 0⟩ : GroupSent) ∈ sentUnder grp (roomRun (twiceCalls.take 5)).2 := by decide +kernel
    exact ⟨_, hmem, sameBody_refl (by decide +kernel)⟩
  · intro x _
    have hmem : (⟨grp, [1], grpMsg 0⟩ : GroupSent) ∈ sentUnder grp (roomRun (twiceCalls.take 6)).2 := by decide +kernel
    exact ⟨_, hmem, sameBody_refl (by decide +kernel)⟩
  · exact ⟨by decide +kernel, by decide +kernel⟩

theorem Example.twice_reach : RoomReach roomOwner (roomRun twiceCalls).1 (roomRun twiceCalls).2 :=
  roomRun_reach twiceCalls fun i hi => twice_allowed i hi

/-- The moment before the last message. -/
theorem Example.twice_before : RoomReach roomOwner (roomRun (twiceCalls.take 7)).1 (roomRun (twiceCalls.take 7)).2 := by
  apply roomRun_reach
  intro i hi
  have hi7 : i < 7 := hi
  have := twice_allowed i (by omega)
  have e1 : (twiceCalls.take 7).take i = twiceCalls.take i := by rw [List.take_take, Nat.min_eq_left (by omega)]
  simp only [e1, List.getElem_take]
  exact this

def Example.lastEntry : RoomLog Nat := [⟨0, .encrypt grp [2, 2] grpSig, .ok (.bytes (grpMsg 1))⟩]

theorem Example.twice_log : (roomRun twiceCalls).2 = (roomRun (twiceCalls.take 7)).2 ++ lastEntry := by
  have e : twiceCalls = twiceCalls.take 7 ++ [(0, .encrypt grp [2, 2] grpSig)] := rfl
  have h : ((GroupCall.encrypt grp [2, 2] grpSig).run ((roomRun (twiceCalls.take 7)).1 0)).result.toOption =
      some (.bytes (grpMsg 1)) := by decide +kernel
  have h' : ((GroupCall.encrypt grp [2, 2] grpSig).run ((roomRun (twiceCalls.take 7)).1 0)).result = .ok (.bytes (grpMsg 1)) := by
    cases hr : ((GroupCall.encrypt grp [2, 2] grpSig).run ((roomRun (twiceCalls.take 7)).1 0)).result with
    | error e => rw [hr] at h; cases h
    | ok x => rw [hr] at h; cases h; rfl
  unfold lastEntry
  rw [← h']
  conv => lhs; rw [e]
  unfold roomRun
  rw [List.foldl_append]
  rfl

/-- The message has been read by both members. -/
theorem Example.twice_read : (sentUnder grp (roomRun (twiceCalls.take 7)).2)[0]? = some ⟨grp, [1], grpMsg 0⟩ ∧
    readBy 1 grp (roomRun (twiceCalls.take 7)).2 = [(grpMsg 0, [1])] ∧ readBy 2 grp (roomRun (twiceCalls.take 7)).2 = [(grpMsg 0, [1])] ∧
    heardBy 1 grp (roomRun (twiceCalls.take 7)).2 = [grpDist, grpDist] ∧ heardBy 2 grp (roomRun (twiceCalls.take 7)).2 = [grpDist] ∧
    heardBy 0 grp (roomRun (twiceCalls.take 7)).2 = [] := by decide +kernel

/-- `C90_theft`, `C90_describes`: what was read by a member who took up the announcement once stays secret, what was read by a member
who took it up twice does not. -/
example (texts : Nat → Prop) (ht : ¬ texts 0) (headers : Nat → Bytes) :
    GroupDescribes grpDist.chainKey grpDist.signatureKey grp (roomRun (twiceCalls.take 7)).1 (roomRun (twiceCalls.take 7)).2 ∧
    GDerives ((groupTheft grp (roomRun (twiceCalls.take 7)).1 (· = 1) (fun _ => False) texts).Has headers
      (sentUnder grp ((roomRun (twiceCalls.take 7)).2 ++ lastEntry)).length) (.text 0) ∧
    ¬ GDerives ((groupTheft grp (roomRun (twiceCalls.take 7)).1 (· = 2) (fun _ => False) texts).Has headers
      (sentUnder grp ((roomRun (twiceCalls.take 7)).2 ++ lastEntry)).length) (.text 0) := by
  have hd : AnnouncedAt grp (roomRun (twiceCalls.take 7)).2 0 grpDist := announced_index 0 0 (by decide +kernel)
  have h' := twice_reach
  rw [twice_log] at h'
  have hx : (sentUnder grp ((roomRun (twiceCalls.take 7)).2 ++ lastEntry))[0]? = some ⟨grp, [1], grpMsg 0⟩ := by
    rw [← twice_log]; decide +kernel
  obtain ⟨_, r1, r2, h1, h2, _⟩ := twice_read
  refine ⟨C90_describes toy_lawful _ _ _ twice_before _ _ hd, ?_, ?_⟩
  · rw [C90_theft toy_lawful roomOwner _ _ _ _ twice_before h' grp _ _ texts headers grpDist hd 0 _ hx ht]
    refine .inr ⟨1, rfl, ?_⟩
    unfold Exposes
    rw [if_neg (by decide), h1]
    exact ⟨grpDist, [grpDist], rfl, .inr ⟨grpDist, List.mem_singleton.2 rfl, by decide +kernel⟩⟩
  · rw [C90_theft toy_lawful roomOwner _ _ _ _ twice_before h' grp _ _ texts headers grpDist hd 0 _ hx ht]
    rintro (⟨_, _, q⟩ | ⟨m, rfl, q⟩)
    · exact q
    · unfold Exposes at q
      rw [if_neg (by decide), h2] at q
      obtain ⟨d, rest, e, q⟩ := q
      cases e
      rcases q with ⟨_, q⟩ | ⟨_, q, _⟩
      · exact q (grpMsg 0, [1]) (by rw [r2]; exact List.mem_singleton.2 rfl) (sameBody_refl (by decide +kernel))
      · cases q

/-- `C90_forward`, `C90_no_healing`, `C90_signing`: the first message is safe from whoever steals the records of member 2 and
of the owner, the second one is not; only the owner's record has the signing key. -/
example (headers : Nat → Bytes) :
    ¬ GDerives ((groupTheft grp (roomRun (twiceCalls.take 7)).1 (· ≠ 1) (fun _ => False) (fun _ => False)).Has headers
      (sentUnder grp ((roomRun (twiceCalls.take 7)).2 ++ lastEntry)).length) (.text 0) ∧
    GDerives ((groupTheft grp (roomRun (twiceCalls.take 7)).1 (· = 2) (fun _ => False) (fun _ => False)).Has headers
      (sentUnder grp ((roomRun (twiceCalls.take 7)).2 ++ lastEntry)).length) (.text 1) ∧
    ¬ GDerives ((groupTheft grp (roomRun (twiceCalls.take 7)).1 (· = 2) (fun _ => False) (fun _ => False)).Has headers
      (sentUnder grp ((roomRun (twiceCalls.take 7)).2 ++ lastEntry)).length) (.sig (.bytes [7])) ∧
    GDerives ((groupTheft grp (roomRun (twiceCalls.take 7)).1 (· = 0) (fun _ => False) (fun _ => False)).Has headers
      (sentUnder grp ((roomRun (twiceCalls.take 7)).2 ++ lastEntry)).length) (.sig (.bytes [7])) := by
  have hd : AnnouncedAt grp (roomRun (twiceCalls.take 7)).2 0 grpDist := announced_index 0 0 (by decide +kernel)
  have h' := twice_reach
  rw [twice_log] at h'
  obtain ⟨hx, r1, r2, h1, h2, h3⟩ := twice_read
  have hnone : ∀ m, m ≠ 0 → m ≠ 1 → m ≠ 2 → heardBy m grp (roomRun (twiceCalls.take 7)).2 = [] := by
    intro m n0 n1 n2
    have hm : ∀ d, d ∉ heardBy m grp (roomRun (twiceCalls.take 7)).2 := by
      intro d hd
      obtain ⟨e, he, hf⟩ := List.mem_filterMap.1 hd
      have hmem : e.member ∈ ((roomRun (twiceCalls.take 7)).2).map (·.member) := List.mem_map.2 ⟨e, he, rfl⟩
      have hall : ((roomRun (twiceCalls.take 7)).2).map (·.member) = [0, 1, 1, 2, 0, 1, 2] := by decide +kernel
      rw [hall] at hmem
      have : e.member = m := by
        split at hf
        · split at hf
          · next q => exact q.1
          · cases hf
        · cases hf
      rw [this] at hmem
      simp [n0, n1, n2] at hmem
    exact List.eq_nil_iff_forall_not_mem.2 hm
  refine ⟨?_, ?_, ?_, ?_⟩
  · refine C90_forward toy_lawful roomOwner _ _ _ _ twice_before h' grp _ _ headers grpDist hd 0 _ hx id ?_ (fun _ => h3) ?_
    · intro m hm1 hm0
      by_cases hm : m = 2
      · rw [hm, h2]; exact Nat.le_refl _
      · rw [hnone m hm0 hm1 hm]; exact Nat.zero_le _
    · intro m hm1 hm0 d hd _
      by_cases hm : m = 2
      · rw [hm, r2]; exact ⟨_, List.mem_singleton.2 rfl, sameBody_refl (by decide +kernel)⟩
      · rw [hnone m hm0 hm1 hm] at hd; cases hd
  · refine C90_no_healing toy_lawful roomOwner _ _ _ _ twice_before h' grp (· = 2) _ _ headers 2 rfl ?_ 1 (by decide +kernel)
      (by rw [← twice_log]; decide +kernel)
    exact fun q => absurd (congrArg List.length q) (by decide +kernel)
  · rw [C90_signing toy_lawful roomOwner _ _ _ twice_before grp _ _ _ headers grpDist hd]
    rintro (⟨i, _, q⟩ | ⟨q, _⟩)
    · cases q
    · cases q
  · rw [C90_signing toy_lawful roomOwner _ _ _ twice_before grp _ _ _ headers grpDist hd]
    exact .inr ⟨rfl, .bytes _⟩

/-- **C90**: forward secrecy fails for a member who has taken up the same announcement twice: the second copy of the chain key stays
in the record as it was, so the record opens messages that the member has read. -/
theorem C90_forward_false : ¬ ∀ (owner : SenderKeyName → Nat) (S : Nat → GroupStore) (log : RoomLog Nat), RoomReach owner S log →
    ∀ (n : SenderKeyName) (m : Nat), m ≠ owner n → ∀ (i : Nat) (x : GroupSent), (sentUnder n log)[i]? = some x →
      (∃ p ∈ readBy m n log, SameBody p.1 x.bytes) → ∀ headers,
      ¬ GDerives ((groupTheft n S (· = m) (fun _ => False) (fun _ => False)).Has headers (sentUnder n log).length) (.text i) := by
  intro h
  have hd : AnnouncedAt grp (roomRun (twiceCalls.take 7)).2 0 grpDist := announced_index 0 0 (by decide +kernel)
  obtain ⟨hx, r1, _, h1, _⟩ := twice_read
  have h0 := twice_before
  have := h roomOwner _ _ twice_before grp 1 (by decide) 0 _ hx
    ⟨(grpMsg 0, [1]), by rw [r1]; exact List.mem_singleton.2 rfl, sameBody_refl (by decide +kernel)⟩ (fun _ => [])
  rw [← List.append_nil (roomRun (twiceCalls.take 7)).2] at h0 hx
  refine this ?_
  have key := (C90_theft toy_lawful roomOwner _ _ _ [] twice_before h0 grp (· = 1) (fun _ => False) (fun _ => False) (fun _ => [])
    grpDist hd 0 _ hx id).2
  rw [List.append_nil] at key
  refine key (.inr ⟨1, rfl, ?_⟩)
  unfold Exposes
  rw [if_neg (by decide), h1]
  exact ⟨grpDist, [grpDist], rfl, .inr ⟨grpDist, List.mem_singleton.2 rfl, by decide +kernel⟩⟩

end
end Axolotl
