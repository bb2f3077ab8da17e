import Verif.Spec.Recovery
import Verif.Props.Forge
import Verif.Props.Takeover
import Verif.Props.Schedule

/-! # C101: after a theft, once the ratchet has moved on, computed messages are refused again -/

namespace Axolotl
section
variable [C : Crypto]
open SessionState
open Spec (GoodPair Net Conv Step Start header AStep ASteps Attack Recorded Term KeyName Leak Derives Labelled Placed Spells Describes Begins
  Named Tagged Offered OfferedFirst OfSetup spkName Computed Crafted CraftedSetup Craft Outside Verifies seenKeys retained theft
  Spared Timed Recovered RStep RSteps)

/-! ## What the thief can compute -/

omit C in
/-- **C101, how far the leak reaches.** From what leaked up to ratchet key number `t`, whatever else leaked before the conversation:
no root key and no message key after number `t + 1` can be computed. -/
theorem C101_reach {l : Leak} {t : Nat} (hl : l.UpTo t) (P : Prop) :
    (∀ j, l.root P j → j ≤ t + 1) ∧ ∀ j k, l.reads P j k → j ≤ t + 1 := by
  refine ⟨fun j h => root_bound (fun j h => Nat.le_succ_of_le (hl.roots j h)) hl.keys h, ?_⟩
  rintro j k (h | h | ⟨k', _, h⟩)
  · exact Nat.le_succ_of_le (hl.messages j k h)
  · exact opens_bound hl.keys h
  · exact Nat.le_succ_of_le (hl.chains j k' h)

theorem upTo_theft {key : KeyName → Bytes} {top1 : Nat} {cv : Conv} {n1 : Net} {S : Bool → Prop} {extra : KeyName → Prop}
    {texts : Bool → Nat → Prop} (hex : ∀ j, extra (.ratchet j) → j ≤ top1) : (theft key top1 cv n1 S extra texts).UpTo top1 where
  keys := by
    rintro j (h | ⟨_, _, _, _, _, _, _, hl, e⟩)
    · exact hex j h
    · injection e with e; subst e; exact hl.1
  roots := by rintro j ⟨_, _, _, _, _, _, hl⟩; exact hl.1
  chains := by rintro j k ⟨_, _, _, _, _, _, hl, _⟩; exact hl.1
  messages := by rintro j k ⟨_, _, _, _, _, _, hl, _⟩; exact hl.1

theorem seen_joined (hC : C.Lawful) {cv : Conv} {n0 n : Net} (h0 : Start cv n0) (h : ASteps cv n0 n) {b : Bool}
    (hne : seenKeys (cv.start b) (n.log b) ≠ []) : n.joined cv b := by
  obtain ⟨ids, hd, g, _, _, hg, hw⟩ := craft_moment hC h0 h
  rw [hg.seen b] at hne
  intro hwt hb hacc
  subst hb
  exact hne (by rw [(hw.waiting hwt hacc).none']; rfl)

/-- **C101, names.** Names can be chosen that fit both the moment of the theft and a later one; and with them, all that an attacker
without the leak may deliver (C86) can be computed with it. -/
theorem C101_names (hC : C.Lawful) {cv : Conv} {n0 n1 n : Net} (h0 : Start cv n0) (h1 : ASteps cv n0 n1) (h2 : ASteps cv n1 n) :
    ∃ (key : KeyName → Bytes) (top1 top spkId : Nat), Begins key cv n0 ∧ Timed key top1 top1 spkId cv n1 n1 ∧
      Timed key top1 top spkId cv n1 n ∧
      ∀ (l : Leak) (b : Bool) (type : Nat) (bytes : Bytes), Attack cv n b type bytes → Craft key top spkId cv n l b type bytes := by
  obtain ⟨ids, kb, ks, ko, hid, hd, g0, ⟨hg0, hw0⟩, hset⟩ := start_full hC h0
  obtain ⟨⟨⟨g1, hg1, hw1, he1⟩, hk1⟩, hkept1⟩ := asteps_from hC hid ⟨⟨g0, hg0, hw0, .refl _ _⟩, fun _ h => h⟩ h1
  obtain ⟨⟨⟨g, hg, hw, he⟩, _⟩, hkept⟩ := asteps_from hC (fun b => by rw [(hkept1 b).pair]; exact hid b)
    ⟨⟨g1, hg1, hw1, .refl n1.keys g1⟩, fun _ h => h⟩ h2
  have a1 := named_all hC h0 hid hset hkept1 hw0 hg1 hw1 he1 he
  have a2 := named_all hC h0 hid hset (fun b => (hkept1 b).trans (hkept b)) hw0 hg hw (he1.trans he hk1) (.refl n.keys g)
  generalize hkey : (allNames g (fun b => (n0.world b).identityKeyPair) kb ks ko
    fun b i => (((n0.world b).signedPreKeys i).bind (·.privateKey)).getD []) = key at a1 a2
  have hpub : ∀ j, j ≤ g.top → C.genPub (key (.ratchet j)) = (g.E j).pub := by
    intro j hj
    rw [← hkey]
    exact ((hg.good j hj).pub).symm
  have hpub1 : ∀ j, j ≤ g1.top → C.genPub (key (.ratchet j)) = (g1.E j).pub := by
    intro j hj
    rw [hpub j (Nat.le_trans hj he.top), he.same j hj]
  have hoff : ∀ b : Bool, (if b then 0 else 1) = off b := by intro b; cases b <;> rfl
  have order : ∀ {m : Net} {g' : Ghost .v3}, GInv cv ids m g' → WInv cv ids hd m g' →
      (∀ j, j ≤ g'.top → C.genPub (key (.ratchet j)) = (g'.E j).pub) → Named key g'.top hd.signedPreKeyId cv m →
      (∀ j, j ≤ g1.top → C.genPub (key (.ratchet j)) ∈ n1.keys) → Timed key g1.top g'.top hd.signedPreKeyId cv n1 m := by
    intro m g' hg' hw' hp hn hb
    refine ⟨hn, hb, fun b t x hx => ?_, fun b r c j hj hr hc hl => ?_⟩
    · rw [hg'.seen b, List.getElem?_map] at hx
      obtain ⟨rv, e1, rfl⟩ := Option.map_eq_some_iff.1 hx
      have ht := (List.getElem?_eq_some_iff.1 e1).1
      have hle := hg'.pos_le ht
      rw [hoff]
      exact ⟨hle, by rw [hp _ hle, hg'.ep b t _ e1]⟩
    · rcases hw'.sides b with ⟨r', q1, q2, _⟩ | ⟨hb', q⟩
      · rw [hr] at q1
        obtain rfl := Option.some.inj q1
        rw [q2.sender] at hc
        obtain rfl := Option.some.inj hc
        have e : (5 :: (g'.E (g'.e b)).pub : Bytes) = 5 :: C.genPub (key (.ratchet j)) := Option.some.inj hl.2
        rw [hp j hl.1] at e
        have := hg'.inj _ _ (hg'.lo b) hl.1 (List.tail_eq_of_cons_eq e)
        rw [← this, hg'.e_succ b, hg'.seen b, List.length_map, hoff]
      · exact absurd q.accepted (hj q.waits hb')
  have hb : ∀ j, j ≤ g1.top → C.genPub (key (.ratchet j)) ∈ n1.keys := fun j hj => by rw [hpub1 j hj]; exact hg1.keys j hj
  exact ⟨key, g1.top, g.top, hd.signedPreKeyId, by rw [← hkey]; exact hset.begins, order hg1 hw1 hpub1 a1 hb, order hg hw hpub a2 hb,
    fun l b type bytes ha => attack_craft hC h0 (asteps_trans h1 h2) a2
      (fun b => by rw [((hkept1 b).trans (hkept b)).pair]; exact hid b) hg hw hpub l ha⟩

/-- **C101, what a theft gives.** Whoever reads the session states of either or both sides has nothing after the moment of the theft,
and none of the keys for a new setup. -/
theorem C101_theft (hC : C.Lawful) {cv : Conv} {n0 n1 : Net} (h0 : Start cv n0) (h1 : ASteps cv n0 n1) {key : KeyName → Bytes}
    {top1 spkId : Nat} (hn : Timed key top1 top1 spkId cv n1 n1) {S : Bool → Prop} (hS : ∀ c, S c → n1.joined cv c) {extra : KeyName → Prop} (hex : ∀ j, extra (.ratchet j) → j ≤ top1)
    (texts : Bool → Nat → Prop) :
    (theft key top1 cv n1 S extra texts).UpTo top1 ∧
    ∀ b, ¬ extra (.identity !b) → (∀ i, ¬ extra (spkName cv spkId b i)) → Spared (theft key top1 cv n1 S extra texts) cv spkId b := by
  have hv : ∀ b, ∀ i ∈ n1.accepted b, i < (n1.sent !b).length := by
    obtain ⟨_, _, _, _, _, hg, _⟩ := craft_moment hC h0 h1
    exact hg.valid
  refine ⟨upTo_theft hex, fun b h1 h2 => ⟨?_, ?_⟩⟩
  · rintro (h | ⟨_, _, _, _, _, _, _, _, e⟩)
    · exact h1 h
    · cases e
  · rintro i (h | ⟨c, r, ch, j, s1, s2, s3, s4, e⟩)
    · exact h2 i h
    · unfold spkName at e
      split at e
      · rename_i hw
        injection e with e
        subst e
        have hm := hn.mine c r ch 0 (hS c s1) s2 s3 s4
        cases c with
        | true =>
          have hm : 0 + 1 = 2 * (seenKeys (cv.start true) (n1.log true)).length + 0 := hm
          omega
        | false =>
          have hacc := hS false s1 hw.1 rfl
          have hl : (seenKeys (cv.start false) (n1.log false)).length = 0 := by
            have hm : 0 + 1 = 2 * (seenKeys (cv.start false) (n1.log false)).length + 1 := hm
            omega
          obtain ⟨i, hi⟩ := List.exists_mem_of_ne_nil _ hacc
          obtain ⟨m, hm'⟩ : ∃ m, (n1.sent true)[i]? = some m := ⟨_, List.getElem?_eq_getElem (hv false i hi)⟩
          have hin := seenKeys_mem (start := cv.start false) (log_mem (b := false) (c := m.1) (pt := m.2) hi hm')
          rw [List.length_eq_zero_iff.1 hl] at hin
          cases hin
      · cases e

/-! ## Forged messages -/

/-- The receive chains are those of the last five keys seen. -/
theorem chain_place (hC : C.Lawful) {cv : Conv} {n0 n : Net} (h0 : Start cv n0) (h : ASteps cv n0 n) {b : Bool} (hj : n.joined cv b)
    {r : SessionRecord} (hr : (n.world b).sessions (cv.addr b) = some r) {c : ChainS} (hc : c ∈ r.sessionState.receiverChains) :
    ∃ t x, (seenKeys (cv.start b) (n.log b))[t]? = some x ∧ (seenKeys (cv.start b) (n.log b)).length ≤ t + 5 ∧
      c.senderRatchetKey = some (5 :: x) := by
  obtain ⟨ids, hd, g, _, _, hg, hw⟩ := craft_moment hC h0 h
  rcases hw.sides b with ⟨r', q1, q2, _⟩ | ⟨hb, q⟩
  · rw [hr] at q1
    obtain rfl := Option.some.inj q1
    rw [q2.recv] at hc
    obtain ⟨rv, h1, rfl⟩ := List.mem_map.1 hc
    obtain ⟨t, h2, h3⟩ := mem_last5.1 h1
    refine ⟨t, rv.ep.pub, ?_, ?_, rfl⟩
    · rw [hg.seen b, List.getElem?_map, h2]; rfl
    · rw [hg.seen b, List.length_map]; omega
  · exact absurd q.accepted (hj q.waits hb)

/-- **C101, forged messages.** Side `b` has accepted a message under a ratchet key `x` that is new since the theft.  Whatever had leaked
then, even the setup and the identity keys: a computed message that verifies on the session of `b` was sent by the peer, or is under
`x` or an earlier ratchet key whose receive chain is still kept. -/
theorem C101_current (hC : C.Lawful) {cv : Conv} {n0 n1 n : Net} (h0 : Start cv n0) (h : ASteps cv n0 n) {key : KeyName → Bytes}
    {top1 top spkId : Nat} (hn : Timed key top1 top spkId cv n1 n) {l : Leak} (hl : l.UpTo top1) {b : Bool} {pre post : List ECPub}
    {x : ECPub} (hx : seenKeys (cv.start b) (n.log b) = pre ++ x :: post) (hnew : x ∉ n1.keys) {r : SessionRecord}
    (hr : (n.world b).sessions (cv.addr b) = some r) {m : WhisperMessage}
    (hm : Computed key (l.Sees cv.setup (Tagged key top n)) (Offered key cv.setup top r.sessionState m.senderRatchetKey m.counter)
      r.sessionState m) (hv : Verifies r.sessionState m) :
    (∃ (i : Nat) (c : Ciphertext) (pt : Bytes), (n.sent (!b))[i]? = some (c, pt) ∧ c.inner.serialized = m.serialized) ∨
    ∃ t, t ≤ pre.length ∧ (seenKeys (cv.start b) (n.log b))[t]? = some m.senderRatchetKey ∧
      (seenKeys (cv.start b) (n.log b)).length ≤ t + 5 := by
  have hj : n.joined cv b := seen_joined hC h0 h (by rw [hx]; simp)
  refine (C95_current hC h0 h hn.named hj hr hm hv).imp id ?_
  rintro ⟨M, o1, o2⟩
  have hlen : (seenKeys (cv.start b) (n.log b)).length = pre.length + 1 + post.length := by rw [hx]; simp; omega
  have hxat : (seenKeys (cv.start b) (n.log b))[pre.length]? = some x := by rw [hx]; simp
  have hlate : top1 < 2 * pre.length + if b then 0 else 1 := by
    apply Nat.lt_of_not_le
    intro hle
    exact hnew ((hn.seen b _ _ hxat).2 ▸ hn.before _ hle)
  obtain ⟨spk, ot, hs, _⟩ := setup_eq cv
  obtain ⟨b1, b2⟩ := C101_reach hl (l.setup spk ot)
  rw [hs] at o1 o2
  cases o1 with
  | @chain c j a1 a2 a3 =>
    have hread := b2 _ _ ((sees_macKey _ _).1 o2)
    obtain ⟨t, y, t1, t2, t3⟩ := chain_place hC h0 h hj hr a1
    have hy : y = C.genPub (key (.ratchet j)) := by
      have := a2.2
      rw [t3] at this
      exact List.tail_eq_of_cons_eq (Option.some.inj this)
    obtain ⟨u1, u2⟩ := hn.seen b t y t1
    have := hn.named.describes.distinct _ _ u1 a2.1 (by rw [← u2, hy])
    exact ⟨t, by omega, by rw [t1, hy, a3], t2⟩
  | @next c j a1 a2 a3 a4 =>
    have hread := b2 _ _ ((sees_macKey _ _).1 o2)
    have := hn.mine b r c j hj hr a1 a2
    exfalso
    omega
  | @stray c j d a1 a2 a3 a4 =>
    have hroot := b1 _ ((sees_strayMac _ _ _).1 o2)
    have := hn.mine b r c j hj hr a1 a2
    exfalso
    omega

/-- **C101, from computing to C86.** Whatever someone delivers to a side that has recovered who computes with what leaked before, and
who does not have the keys for a new setup, meets the assumption of C86. -/
theorem C101_attack (hC : C.Lawful) {cv : Conv} {n0 n1 n : Net} (h0 : Start cv n0) (h : ASteps cv n0 n) {key : KeyName → Bytes}
    {top1 top spkId : Nat} (hn : Timed key top1 top spkId cv n1 n) {l : Leak} (hl : l.UpTo top1) {b : Bool} (hsp : Spared l cv spkId b)
    (hrec : Recovered cv n1 n b) {type : Nat} {bytes : Bytes} (hc : Craft key top spkId cv n l b type bytes) :
    Attack cv n b type bytes := by
  obtain ⟨pre, x, post, hx, hnew, hfive⟩ := hrec
  have hj : n.joined cv b := seen_joined hC h0 h (by rw [hx]; simp)
  have hlen : (seenKeys (cv.start b) (n.log b)).length = pre.length + 1 + post.length := by rw [hx]; simp; omega
  have hcur : ∀ m, Crafted key top cv n l b m → Spec.Unforged cv n b m := by
    intro m hm
    refine ⟨fun r hj hr hv => ?_, hm.before, hm.previous⟩
    rcases C101_current hC h0 h hn hl hx hnew hr (hm.computed r hj hr) hv with ⟨i, c, pt, s1, s2⟩ | ⟨t, t1, t2, t3⟩
    · exact ⟨i, c, pt, s1, s2, hm.limits r hj hr hv i c pt s1 s2⟩
    · omega
  obtain ⟨spk, ot, hs, _⟩ := setup_eq cv
  unfold Craft at hc
  unfold Attack
  split
  · rename_i ht
    rw [if_pos ht] at hc
    intro m hm
    have hm' := hc m hm
    refine ⟨hcur _ hm'.inner, hm'.pinned, fun htr hk s hsu hv => ?_⟩
    obtain ⟨g1, g2⟩ := hm'.setup htr hk s hsu
    have hver := (parsed_shape hm).1
    have hof : ¬ OfSetup key spkId cv b m := by
      rintro ⟨hwt, rfl, o1, _, _⟩
      obtain ⟨ids, hd, g, _, _, hg, hw⟩ := craft_moment hC h0 h
      have hacc := hj hwt rfl
      rcases hw.sides false with ⟨r, q1, q2, _⟩ | ⟨_, q⟩
      · refine hk ⟨r, q1, r.sessionState, List.mem_cons_self .., ?_, ?_⟩
        · rw [q2.version, hver]; rfl
        · rw [hn.named.answered r hwt hacc q1, o1]; rfl
      · exact hacc q.accepted
    rcases C95_setup hC h0 h hn.named (hm'.pinned htr) hver hk hsu g1 hv with ⟨i, p, pt, s1, s2, s3, s4, s5⟩ | ⟨M, o1, o2⟩
    · exact ⟨i, p, pt, s1, s2, s3, s4, s5, g2 hv i _ pt s1 s5⟩
    · exfalso
      cases o1 with
      | join a => exact hof a
      | early a => exact hof a
      | other a =>
        rw [hs] at o2
        rcases (sees_otherMac _ _ _ _ _).1 o2 with (h | ⟨k, h⟩) | (h | ⟨k, h⟩)
        · exact hsp.identity h
        · cases h
        · exact hsp.signed _ h
        · unfold spkName at h
          split at h <;> cases h
  · rename_i ht
    rw [if_neg ht] at hc
    exact fun m hm => hcur m (hc m hm)

/-- **C101, all runs.** After a theft, with someone who has all that leaked then and uses it against the sides that have recovered:
every run is one of those of C86.  So all theorems about conversations with an attacker who has nothing hold of it. -/
theorem C101_steps (hC : C.Lawful) {cv : Conv} {n0 n1 n : Net} (h0 : Start cv n0) (h1 : ASteps cv n0 n1) (h : RSteps cv n1 n1 n) :
    ASteps cv n1 n := by
  induction h with
  | refl => exact .refl
  | step _ hs ih =>
    refine ih.step ?_
    cases hs with
    | usual hs => exact hs
    | craft a1 a2 a3 a4 a5 a6 a7 a8 a9 a10 => exact .attack (C101_attack hC h0 (asteps_trans h1 ih) a1 a2 a3 a4 a5) a6 a7 a8 a9 a10

/-! ## Recovery lasts -/

omit C in
theorem seen_more (start : List ECPub) (log more : List (ECPub × Nat)) : seenKeys start log <+: seenKeys start (log ++ more) := by
  unfold seenKeys
  rw [List.foldl_append]
  generalize log.foldl (fun l h => if h.1 ∈ l then l else l ++ [h.1]) start = s
  induction more generalizing s with
  | nil => exact List.prefix_refl _
  | cons h t ih =>
    rw [List.foldl_cons]
    refine List.IsPrefix.trans ?_ (ih _)
    split
    · exact List.prefix_refl _
    · exact List.prefix_append ..

theorem astep_log (hC : C.Lawful) {cv : Conv} {n0 n m : Net} (h0 : Start cv n0) (h : ASteps cv n0 n) (hs : AStep cv n m) (a : Bool) :
    n.log a <+: m.log a := by
  obtain ⟨_, _, _, _, _, hg, _⟩ := craft_moment hC h0 h
  have hacc : ∀ {n' : Net} {l : List Nat}, n'.sent = n.sent → n'.accepted a = n.accepted a ++ l → n.log a <+: n'.log a := by
    intro n' l e1 e2
    unfold Net.log
    rw [e1, e2, List.filterMap_append]
    exact List.prefix_append ..
  have hupd : ∀ (b : Bool) (l : List Nat), ∃ l', upd n.accepted b (n.accepted b ++ l) a = n.accepted a ++ l' := by
    intro b l
    by_cases hab : a = b
    · subst hab; exact ⟨l, upd_same ..⟩
    · exact ⟨[], by rw [upd_other _ _ hab, List.append_nil]⟩
  cases hs with
  | honest hs =>
    cases hs with
    | @send b pt c h1 h2 h3 =>
      rw [log_same (n := n) (m := { n with sent := upd n.sent b (n.sent b ++ [(c, pt)]) }) rfl ?_]
      · exact List.prefix_refl _
      · intro i hi
        by_cases hab : (!a) = b
        · subst hab
          simp only [upd_same]
          rw [List.getElem?_append_left (hg.valid a i hi)]
        · simp only [upd_other _ _ hab]
    | @deliver b i c pt seed seeds h1 h2 h3 h4 h5 =>
      by_cases hi : i ∈ n.accepted b
      · obtain ⟨l', e⟩ := hupd b []
        refine hacc (l := l') rfl ?_
        rw [← e]
        simp [hi]
      · obtain ⟨l', e⟩ := hupd b [i]
        refine hacc (l := l') rfl ?_
        rw [← e]
        simp [hi]
    | other h1 h2 h3 => exact List.prefix_refl _
  | @attack b type bytes seed seeds acc h1 h2 h3 h4 h5 h6 =>
    generalize (Spec.receive (n.world b) (cv.addr b) type bytes seed seeds).result = res at h6
    cases h6 with
    | refused =>
      obtain ⟨l', e⟩ := hupd b []
      rw [List.append_nil] at e
      exact hacc (l := l') rfl e
    | @taken i =>
      obtain ⟨l', e⟩ := hupd b [i]
      exact hacc (l := l') rfl e

theorem asteps_log (hC : C.Lawful) {cv : Conv} {n0 n m : Net} (h0 : Start cv n0) (h : ASteps cv n0 n) (hs : ASteps cv n m) (a : Bool) :
    n.log a <+: m.log a := by
  induction hs with
  | refl => exact List.prefix_refl _
  | step hs' hs ih => exact ih.trans (astep_log hC h0 (asteps_trans h hs') hs a)

/-- **C101, recovery lasts.** -/
theorem C101_lasts (hC : C.Lawful) {cv : Conv} {n0 n1 n m : Net} (h0 : Start cv n0) (h : ASteps cv n0 n) (hs : ASteps cv n m) {b : Bool}
    (hrec : Recovered cv n1 n b) : Recovered cv n1 m b := by
  obtain ⟨pre, x, post, hx, hnew, hfive⟩ := hrec
  obtain ⟨more, e⟩ := asteps_log hC h0 h hs b
  obtain ⟨t, e'⟩ := seen_more (cv.start b) (n.log b) more
  rw [e, hx] at e'
  exact ⟨pre, x, post ++ t, by rw [← e']; simp, hnew, by rw [List.length_append]; omega⟩

end

/-! ## Non-vacuity: runs over the toy primitives -/

section
attribute [local instance] toy
open Example
open Spec (Net Conv Start header ASteps Carries seenKeys theft Timed Spared Recovered RSteps RStep KeyName Leak)

/-- Alice sends, Bob gets it and replies, Alice gets the reply; so it goes `k` times. -/
def exchangeRun : Nat → Net → Option Net
  | 0, n => some n
  | k + 1, n => (exchangeRun k n).bind fun n => (convSend convCv n true [97]).bind fun n =>
    (convDeliver convCv n false ((n.sent true).length - 1) (key (.ofNat (100 + 2 * k)))).bind fun n =>
    (convSend convCv n false [98]).bind fun n => convDeliver convCv n true ((n.sent false).length - 1) (key (.ofNat (101 + 2 * k)))

theorem exchangeRun_steps : ∀ {k : Nat} {n m : Net}, exchangeRun k n = some m → ASteps convCv n m
  | 0, _, _, h => Option.some.inj h ▸ .refl
  | k + 1, n, m, h => by
    unfold exchangeRun at h
    simp only [Option.bind_eq_some_iff] at h
    obtain ⟨a1, h1, a2, h2, a3, h3, a4, h4, h5⟩ := h
    exact ((((exchangeRun_steps h1).step (.honest (convSend_step h2))).step (.honest (convDeliver_step h3))).step
      (.honest (convSend_step h4))).step (.honest (convDeliver_step h5))

/-- The first new key, and five after it. -/
def recoveredCheck (n1 n : Net) (b : Bool) : Bool :=
  let seen := seenKeys (convCv.start b) (n.log b)
  decide (5 < seen.length) && (seen[seen.length - 6]?.any fun x => decide (x ∉ n1.keys))

theorem recoveredCheck_spec {n1 n : Net} {b : Bool} (h : recoveredCheck n1 n b = true) : Recovered convCv n1 n b := by
  simp only [recoveredCheck, Bool.and_eq_true, decide_eq_true_eq] at h
  obtain ⟨h1, h2⟩ := h
  obtain ⟨x, h3, h4⟩ := (Option.any_eq_true _ _).1 h2
  obtain ⟨h5, rfl⟩ := List.getElem?_eq_some_iff.1 h3
  refine ⟨(seenKeys (convCv.start b) (n.log b)).take ((seenKeys (convCv.start b) (n.log b)).length - 6), _,
    (seenKeys (convCv.start b) (n.log b)).drop ((seenKeys (convCv.start b) (n.log b)).length - 6 + 1), ?_, of_decide_eq_true h4, ?_⟩
  · rw [List.getElem_cons_drop, List.take_append_drop]
  · rw [List.length_drop]; omega

/-- Both sides have recovered, and then the last message but one to Bob is delivered to him again, with a byte changed and as it was. -/
def recoveredRun (n1 n : Net) : Option Net :=
  if recoveredCheck n1 n true && recoveredCheck n1 n false then
    (convAttack convCv n false 2 (lastByteChanged (sentInner n true ((n.sent true).length - 2))) (key 130) (key 131)).bind fun n =>
    convAttack convCv n false 2 (sentInner n true ((n.sent true).length - 2)) (key 132) (key 133)
  else none

theorem recovered_check : actRun.any (fun n1 => (exchangeRun 7 n1).any fun n => (recoveredRun n1 n).any fun m =>
    decide (n1.accepted false ≠ []) && decide (m.keys.length = n.keys.length + 4)) = true := by
  decide +kernel

/-- The thief has the states of both sides and all private keys but the identity keys and those of the prekeys. -/
def wholeTheft (key : KeyName → Bytes) (top1 : Nat) (n1 : Net) : Leak :=
  theft key top1 convCv n1 (fun _ => True) (fun x => (∃ j, x = .ratchet j ∧ 0 < j ∧ j ≤ top1) ∨ x = .base true) (fun _ _ => True)

theorem wholeTheft_spec {n1 : Net} (h1 : ASteps convCv act0 n1) (hj : n1.accepted false ≠ []) {key : KeyName → Bytes} {top1 spkId : Nat}
    (hn : Timed key top1 top1 spkId convCv n1 n1) (b : Bool) :
    (wholeTheft key top1 n1).UpTo top1 ∧ Spared (wholeTheft key top1 n1) convCv spkId b := by
  obtain ⟨h2, h3⟩ := C101_theft toy_lawful act_start h1 hn (S := fun _ => True) (fun c _ _ e => by subst e; exact hj)
    (extra := fun x => (∃ j, x = .ratchet j ∧ 0 < j ∧ j ≤ top1) ∨ x = .base true)
    (by rintro j (⟨j', e, _, h⟩ | e)
        · injection e with e; subst e; exact h
        · cases e) (fun _ _ => True)
  refine ⟨h2, h3 b ?_ ?_⟩
  · rintro (⟨j', e, _⟩ | e) <;> cases e
  · rintro i (⟨j', e, h, _⟩ | e)
    · unfold Spec.spkName at e
      split at e
      · injection e with e; omega
      · cases e
    · unfold Spec.spkName at e
      split at e <;> cases e

/-- The hypotheses of C101 are met: the states of Alice and Bob are stolen after `actRun`; seven exchanges later both have recovered;
the thief delivers messages to Bob. -/
example : ∃ n1 n m, Start convCv act0 ∧ ASteps convCv act0 n1 ∧ ASteps convCv n1 n ∧ Recovered convCv n1 n true ∧ Recovered convCv n1 n false ∧
    (∃ key top1 top spkId, Timed key top1 top1 spkId convCv n1 n1 ∧ Timed key top1 top spkId convCv n1 n ∧
      ∀ b, (wholeTheft key top1 n1).UpTo top1 ∧ Spared (wholeTheft key top1 n1) convCv spkId b) ∧
    RSteps convCv n1 n m ∧ m.keys.length = n.keys.length + 4 := by
  have hc := recovered_check
  obtain ⟨n1, hr, h⟩ := (Option.any_eq_true _ _).1 hc
  obtain ⟨n, hn, h⟩ := (Option.any_eq_true _ _).1 h
  obtain ⟨m, hm, h⟩ := (Option.any_eq_true _ _).1 h
  simp only [Bool.and_eq_true, decide_eq_true_eq] at h
  unfold recoveredRun at hm
  split at hm
  swap
  · cases hm
  rename_i hrec
  rw [Bool.and_eq_true] at hrec
  obtain ⟨m1, hm1, hm2⟩ := Option.bind_eq_some_iff.1 hm
  have s1 := actRun_steps hr
  have s2 := exchangeRun_steps hn
  have rt := recoveredCheck_spec hrec.1
  have rf := recoveredCheck_spec hrec.2
  have s3 := convAttack_step toy_lawful hm1
  have one : ∀ {k k' : Net} {bytes seed seed0 : Bytes}, ASteps convCv n1 k → Recovered convCv n1 k false →
      convAttack convCv k false 2 bytes seed seed0 = some k' → RStep convCv n1 k k' := by
    intro k k' bytes seed seed0 hk hrk h2
    obtain ⟨acc, rfl, a1, a2, a3, a4, a5, a6⟩ := convAttack_spec toy_lawful h2
    obtain ⟨key, top1, top, spkId, _, b1, b2, b3⟩ := C101_names toy_lawful act_start s1 hk
    obtain ⟨w1, w2⟩ := wholeTheft_spec s1 h.1 b1 false
    exact .craft b2 w1 w2 hrk (b3 _ _ _ _ a1) a2 a3 a4 a5 a6
  obtain ⟨key, top1, top, spkId, _, b1, b2, _⟩ := C101_names toy_lawful act_start s1 s2
  exact ⟨n1, n, m, act_start, s1, s2, rt, rf, ⟨key, top1, top, spkId, b1, b2, wholeTheft_spec s1 h.1 b1⟩,
    (RSteps.refl.step (one s2 rf hm1)).step
      (one (s2.step s3) (C101_lasts toy_lawful act_start (asteps_trans s1 s2) (ASteps.refl.step s3) rf) hm2), h.2⟩

/-! ## Before that -/

/-- A message in which the one who has read Bob's state, and then a message `c` of Alice's, writes to Bob: under the ratchet key of `c`. -/
def forgery (st : SessionState) (c : Ciphertext) (pt : Bytes) : Option Ciphertext :=
  let w := otherStore (key 2) mallory (some { fresh := false, sessionState := st, previousStates := [] })
  let w' := (Spec.receive w mallory c.getType c.serialize (key 140) (fun _ => key 141)).final w
  (w'.sessions mallory).bind fun r =>
    let st' := r.sessionState
    let back := { st' with
      senderChain := st'.receiverChains.getLast?
      localIdentityPublic := st'.remoteIdentityPublic
      remoteIdentityPublic := st'.localIdentityPublic }
    (SessionCipher.encrypt (otherStore (key 1) mallory (some { fresh := false, sessionState := back, previousStates := [] })) mallory pt).result.toOption

/-- Bob's state is stolen when he has just generated a ratchet key and has not sent with it.  Then he sends; Alice gets it and
there are `k` exchanges. -/
def earlyRun (n : Net) : Option Net :=
  (convSend convCv n true [97]).bind fun n => convDeliver convCv n false ((n.sent true).length - 1) (key 90)

def laterRun (k : Nat) (n : Net) : Option Net :=
  (convSend convCv n false [98]).bind fun n =>
    (convDeliver convCv n true ((n.sent false).length - 1) (key 91)).bind fun n => exchangeRun k n

theorem earlyRun_steps {n m : Net} (h : earlyRun n = some m) : ASteps convCv n m := by
  obtain ⟨a, h1, h2⟩ := Option.bind_eq_some_iff.1 h
  exact (ASteps.refl.step (.honest (convSend_step h1))).step (.honest (convDeliver_step h2))

theorem laterRun_steps {k : Nat} {n m : Net} (h : laterRun k n = some m) : ASteps convCv n m := by
  unfold laterRun at h
  simp only [Option.bind_eq_some_iff] at h
  obtain ⟨a1, h1, a2, h2, h3⟩ := h
  exact asteps_trans ((ASteps.refl.step (.honest (convSend_step h1))).step (.honest (convDeliver_step h2))) (exchangeRun_steps h3)

/-- After `k` exchanges Bob has seen `k` new keys; the message is not one of Alice's; and this is what he makes of it. -/
def forgeCheck (k : Nat) (n1 n : Net) (p : Ciphertext × Bytes) (f : Ciphertext) (expect : Option Bytes) : Bool :=
  decide (((seenKeys (convCv.start false) (n.log false)).filter (fun x => decide (x ∉ n1.keys))).length = k) &&
  decide (p ∈ n.sent true) &&
  ((n.sent true).all fun x => decide (x.1.inner.serialized ≠ f.inner.serialized)) &&
  decide ((Spec.receive (n.world false) (convCv.addr false) f.getType f.serialize (key 200) (fun _ => key 201)).result.toOption = expect)

theorem forge_check : actRun.any (fun n0 => (earlyRun n0).any fun n1 =>
    ((n1.world false).sessions (convCv.addr false)).any fun r =>
    ((laterRun 5 n1).any fun n => (n.sent true)[(n1.sent true).length]?.any fun p =>
      (forgery r.sessionState p.1 [109]).any fun f => forgeCheck 5 n1 n p f (some [109])) &&
    ((laterRun 6 n1).any fun n => (n.sent true)[(n1.sent true).length]?.any fun p =>
      (forgery r.sessionState p.1 [109]).any fun f => forgeCheck 6 n1 n p f none)) = true := by
  decide +kernel

/-- **C101, five new keys are not enough.** There is a run in which Bob's session state is stolen, and nothing else, and after which he has accepted
messages under five new ratchet keys of Alice's; yet he accepts a message that she did not send, computed from that state and one of
her messages. -/
theorem C101_five : ∃ (n1 n : Net) (r : SessionRecord) (c : Ciphertext) (pt : Bytes) (f : Ciphertext),
    Start convCv act0 ∧ ASteps convCv act0 n1 ∧ ASteps convCv n1 n ∧ (n1.world false).sessions (convCv.addr false) = some r ∧
    (c, pt) ∈ n.sent true ∧ forgery r.sessionState c [109] = some f ∧
    ((seenKeys (convCv.start false) (n.log false)).filter (fun x => decide (x ∉ n1.keys))).length = 5 ∧
    (∀ x ∈ n.sent true, x.1.inner.serialized ≠ f.inner.serialized) ∧
    (Spec.receive (n.world false) (convCv.addr false) f.getType f.serialize (key 200) (fun _ => key 201)).result = .ok [109] := by
  have h := forge_check
  obtain ⟨n0, h0, h⟩ := (Option.any_eq_true _ _).1 h
  obtain ⟨n1, h1, h⟩ := (Option.any_eq_true _ _).1 h
  obtain ⟨r, hr, h⟩ := (Option.any_eq_true _ _).1 h
  rw [Bool.and_eq_true] at h
  obtain ⟨n, hn, h⟩ := (Option.any_eq_true _ _).1 h.1
  obtain ⟨p, _, h⟩ := (Option.any_eq_true _ _).1 h
  obtain ⟨f, hf, h⟩ := (Option.any_eq_true _ _).1 h
  simp only [forgeCheck, Bool.and_eq_true, decide_eq_true_eq, List.all_eq_true] at h
  obtain ⟨⟨⟨g1, g2⟩, g3⟩, g4⟩ := h
  refine ⟨n1, n, r, p.1, p.2, f, act_start, asteps_trans (actRun_steps h0) (earlyRun_steps h1), laterRun_steps hn, hr, g2, hf, g1, g3, ?_⟩
  generalize (Spec.receive (n.world false) (convCv.addr false) f.getType f.serialize (key 200) (fun _ => key 201)).result = res at g4
  cases res with
  | error e => cases g4
  | ok x => exact congrArg Except.ok (Option.some.inj g4)

end
end Axolotl
