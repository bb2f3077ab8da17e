import Verif.Spec.TheftSociety
import Verif.Props.FirstSociety
import Verif.Props.Recovery

/-! # C107: a whole society recovers from a theft -/

namespace Axolotl
section
variable [C : Crypto] {P : Type} [DecidableEq P]
open Spec

theorem thief_attack (hC : C.Lawful) {s1 s : System P} (h : SysReach s) {t : Chat P} (ht : t ∈ s.chats) {b : Bool} {type : Nat} {bytes : Bytes}
    (hc : ThiefCrafts s1 t (t.net s.world) b type bytes) : Attack t.cv (t.net s.world) b type bytes := by
  rcases hc with hc | ⟨t1, _, key, top1, top, spkId, l, k1, k2, k3, k4, k5⟩
  · exact crafts_attack hC h ht hc
  · obtain ⟨n0, h1, h2⟩ := C87_each hC h ht
    exact C101_attack hC h1 h2 k1 k2 k3 k4 k5

theorem thief_crafts (hC : C.Lawful) {s1 s : System P} (h : SysReach s) {t : Chat P} (ht : t ∈ s.chats) {b : Bool} {type : Nat} {bytes : Bytes}
    (hc : ThiefCrafts s1 t (t.net s.world) b type bytes) : Crafts t (t.net s.world) b type bytes := by
  obtain ⟨n0, h1, h2⟩ := C87_each hC h ht
  exact attack_outside hC h1 h2 (thief_attack hC h ht hc)

/-- **C107, many conversations.** After a theft of all session states, the thief brings about nothing, by what they deliver to sides that
have recovered, that the attacker of C87 could not; so all of C87 holds. -/
theorem C107_system (hC : C.Lawful) {s1 s : System P} (h1 : SysReach s1) (h : ThiefReach s1 s) : SysReach s := by
  induction h with
  | theft => exact h1
  | step _ hs ih => exact .step ih (sysStep_imp hs fun t ht b type bytes hc => thief_attack hC ih ht hc)

/-- **C107, what is accepted.** If a side that has recovered accepts what the thief delivers as coming from the peer, then this very peer
sent it in this very conversation, and it was not accepted before. -/
theorem C107_only_sent (hC : C.Lawful) {s1 s : System P} (h1 : SysReach s1) (h : ThiefReach s1 s) {t : Chat P} (ht : t ∈ s.chats) {b : Bool}
    {type : Nat} {bytes seed : Bytes} {seeds : Nat → Bytes} (ha : ThiefCrafts s1 t (t.net s.world) b type bytes) (hs1 : seed.length = 32)
    (hs2 : (seeds 0).length = 32) (hf1 : C.genPub (C.genPriv seed) ∉ t.keys) (hf2 : C.genPub (C.genPriv (seeds 0)) ∉ t.keys)
    {pt : Bytes} (hok : (Spec.receive (s.world (t.party b)) (t.cv.addr b) type bytes seed seeds).result = .ok pt) :
    ∃ (i : Nat) (c : Ciphertext), (t.sent (!b))[i]? = some (c, pt) ∧ i ∉ t.accepted b ∧ InnerBytes type bytes c.inner.serialized :=
  C87_only_sent hC (C107_system hC h1 h) ht (thief_attack hC (C107_system hC h1 h) ht ha) hs1 hs2 hf1 hf2 hok

omit C [DecidableEq P] in
theorem announcedAt_announced {n : SenderKeyName} {id : Nat} {log : RoomLog P} {k : Nat} {d : SenderKeyDistributionMessage}
    (h : AnnouncedAt n (ofKey n id log) k d) : Announced n log d ∧ d.id = id := by
  obtain ⟨pre, e, post, rnd, d0, h1, h2, h3, h4, _⟩ := h
  have he : e ∈ ofKey n id log := by rw [h1]; simp
  obtain ⟨he, hab⟩ := List.mem_filter.1 he
  refine ⟨⟨e, he, rnd, d0, h2, h3, h4⟩, ?_⟩
  unfold About at hab
  rw [h2, h3] at hab
  simp only [decide_true, Bool.true_and, announcementKeyId, h4, Except.toOption, decide_eq_true_eq] at hab
  simpa using hab

/-- Up to some moment nothing has been received under the keys announced only after it. -/
theorem rsociety_new {owner : SenderKeyName → P} {enc : SenderKeyName → Bytes → Bytes} {safe : SenderKeyName → Nat → Prop}
    {a : Society P} (h : RSocietyReach owner enc safe a) {log : RoomLog P} (hsub : ∀ e ∈ a.log, e ∈ log) :
    RSocietyReach owner enc (Unannounced log) a := by
  have hgo : ∀ {n : SenderKeyName} {id : Nat} {log' : RoomLog P} {k : Nat} {d : SenderKeyDistributionMessage}, (∀ e ∈ log', e ∈ log) →
      Unannounced log n id → ¬ AnnouncedAt n (ofKey n id log') k d := by
    intro n id log' k d hs hu hd
    obtain ⟨⟨e, he, q⟩, hid⟩ := announcedAt_announced hd
    exact hu d ⟨e, hs e he, q⟩ hid
  induction h with
  | init => exact .init
  | step _ hs ih =>
    cases hs with
    | talk h1 h2 => exact .step (ih hsub) (.talk h1 h2)
    | group m c hc =>
      have hsub' := fun e he => hsub e (List.mem_append_left _ he)
      refine .step (ih hsub') (.group m c ?_)
      cases c with
      | encrypt n pt rand => exact hc
      | create n rnd => exact hc
      | process n d => exact hc
      | decrypt n b => exact fun id _ hu d hd => absurd hd (hgo hsub' hu)
    | renew n rnd h1 h2 h3 h4 => exact .step (ih fun e he => hsub e (List.mem_append_left _ he)) (.renew n rnd h1 h2 h3 h4)

/-- **C107, conversations and groups.** After a theft of all session states and sender-key records, with a thief who uses what they have
against sides that have recovered and against all sender keys announced before: the society is as C105 says, if by safe keys are meant
those announced since. -/
theorem C107_society (hC : C.Lawful) {owner : SenderKeyName → P} {enc : SenderKeyName → Bytes → Bytes} {safe : SenderKeyName → Nat → Prop}
    {a1 a : Society P} (h1 : RSocietyReach owner enc safe a1) (h : TSocietyReach owner enc a1 a) :
    RSocietyReach owner enc (Unannounced a1.log) a := by
  induction h with
  | theft => exact rsociety_new h1 fun e he => he
  | step _ hs ih =>
    exact .step ih (societyStepBy_renew hs fun t ht b type bytes hc => thief_crafts hC (removal_inv hC ih).sys ht hc)

/-- **C107, authenticity.** What a member reads under a key announced since the theft was sent by the owner of the name, with this
plaintext, and is read once. -/
theorem C107_genuine (hC : C.Lawful) {owner : SenderKeyName → P} {enc : SenderKeyName → Bytes → Bytes} {safe : SenderKeyName → Nat → Prop}
    {a1 a : Society P} (h1 : RSocietyReach owner enc safe a1) (h : TSocietyReach owner enc a1 a) (n : SenderKeyName) (m : P) :
    (∀ p ∈ readBy m n a.log, ∀ id, messageKeyId p.1 = some id → Unannounced a1.log n id →
      m ≠ owner n ∧ ∃ x ∈ sentUnder n a.log, SameBody p.1 x.bytes ∧ p.2 = x.plaintext) ∧
    (readBy m n a.log).Pairwise fun p q => ∀ id, messageKeyId p.1 = some id → Unannounced a1.log n id → ¬ SameBody p.1 q.1 :=
  C105_genuine hC (C107_society hC h1 h) n m

/-! ## Each conversation goes on -/

omit C in
/-- The conversations of an earlier moment are still there. -/
def StillThere (s1 s : System P) : Prop := ∀ t1 ∈ s1.chats, ∃ t ∈ s.chats, WasThen s1 t t1

theorem stillThere_step {A : Chat P → Net → Bool → Nat → Bytes → Prop} {s1 s s' : System P} {e : SysEvent P} (h : StillThere s1 s)
    (hs : SysStepBy A s e s') : StillThere s1 s' := by
  have hset : ∀ {k : Nat} {t t' : Chat P}, s.chats[k]? = some t → t'.party = t.party → t'.cv = t.cv →
      ∀ t1 ∈ s1.chats, ∃ u ∈ s.chats.set k t', WasThen s1 u t1 := by
    intro k t t' hk hp hcv t1 ht1
    obtain ⟨u, hu, h1, h2, h3⟩ := h t1 ht1
    obtain ⟨j, hj⟩ := List.mem_iff_getElem?.1 hu
    by_cases hjk : k = j
    · subst hjk
      rw [hk] at hj
      obtain rfl := Option.some.inj hj
      refine ⟨t', List.mem_of_getElem? (i := k) ?_, h1, h2.trans hp.symm, h3.trans hcv.symm⟩
      rw [List.getElem?_set, if_pos rfl, if_pos (List.getElem?_eq_some_iff.1 hk).1]
    · refine ⟨u, List.mem_of_getElem? (i := j) ?_, h1, h2, h3⟩
      rw [List.getElem?_set, if_neg hjk, hj]
  cases hs with
  | start => 
    intro t1 ht1
    obtain ⟨u, hu, q⟩ := h t1 ht1
    exact ⟨u, List.mem_append_left _ hu, q⟩
  | send h1 => exact hset h1 rfl rfl
  | deliver h1 => exact hset h1 rfl rfl
  | attack h1 => exact hset h1 rfl rfl
  | other => exact h

/-- How a conversation was at an earlier moment, or how it began after it. -/
def ThenOrNew (s1 : System P) (p : Bool → P) (cv : Conv) (n : Net) : Prop :=
  (∃ t1 ∈ s1.chats, t1.party = p ∧ t1.cv = cv ∧ n = t1.net s1.world) ∨
  (Start cv n ∧ ¬ ∃ t1 ∈ s1.chats, t1.party = p ∧ t1.cv = cv)

theorem thief_inv (hC : C.Lawful) {s1 s : System P} (h1 : SysReach s1) (h : ThiefReach s1 s) :
    StillThere s1 s ∧ SysInvOf (ThenOrNew s1) s := by
  induction h with
  | theft =>
    have hi := sysReach_inv hC h1
    exact ⟨fun t ht => ⟨t, ht, ht, rfl, rfl⟩, hi.distinct, hi.apart, fun t ht => ⟨_, .inl ⟨t, ht, rfl, rfl, rfl⟩, .refl⟩⟩
  | @step s s' e h hs ih =>
    refine ⟨stillThere_step ih.1 hs, sysInvOf_step hC ?_ ih.2 (sysStep_imp hs fun t ht b type bytes hc =>
      thief_attack hC (C107_system hC h1 h) ht hc) ?_⟩
    · rintro p cv n (⟨t1, ht1, rfl, rfl, rfl⟩ | ⟨q, _⟩)
      · exact C87_each hC h1 ht1
      · exact ⟨n, q, .refl⟩
    · intro t ht hst
      refine .inr ⟨hst, ?_⟩
      rintro ⟨t1, ht1, e1, e2⟩
      obtain ⟨u, hu, _, e3, e4⟩ := ih.1 t1 ht1
      have hlen : ∀ {k : Nat} {u' : Chat P}, t ∉ (s.chats.set k u').drop s.chats.length := by
        intro k u' hm
        rw [List.drop_eq_nil_of_le (by rw [List.length_set])] at hm
        cases hm
      cases hs with
      | @start t' world hd hap hb hrest hst' =>
        have ht : t ∈ (s.chats ++ [t']).drop s.chats.length := ht
        rw [List.drop_left] at ht
        obtain rfl := List.mem_singleton.1 ht
        refine (hap u hu).addr true true ?_ ?_
        · rw [← e1, e3]
        · rw [← e2, e4]
      | send => exact hlen ht
      | deliver => exact hlen ht
      | attack => exact hlen ht
      | other =>
        have ht : t ∈ s.chats.drop s.chats.length := ht
        rw [List.drop_length] at ht
        cases ht

/-- **C107, each conversation** goes on from where it was at the theft. -/
theorem C107_each (hC : C.Lawful) {s1 s : System P} (h1 : SysReach s1) (h : ThiefReach s1 s) {t : Chat P} (ht : t ∈ s.chats) :
    (∃ t1, WasThen s1 t t1 ∧ ASteps t.cv (t1.net s1.world) (t.net s.world)) ∨
    ((¬ ∃ t1, WasThen s1 t t1) ∧ ∃ n0, Start t.cv n0 ∧ ASteps t.cv n0 (t.net s.world)) := by
  obtain ⟨n0, ⟨t1, q1, q2, q4, rfl⟩ | ⟨q1, q2⟩, q3⟩ := (thief_inv hC h1 h).2.runs t ht
  · exact .inl ⟨t1, ⟨q1, q2, q4⟩, q3⟩
  · exact .inr ⟨fun ⟨t1, k1, k2, k3⟩ => q2 ⟨t1, k1, k2, k3⟩, n0, q1, q3⟩

/-- A conversation was only one conversation. -/
theorem wasThen_unique (hC : C.Lawful) {s1 : System P} (h1 : SysReach s1) {t t1 t2 : Chat P} (k1 : WasThen s1 t t1) (k2 : WasThen s1 t t2) :
    t1 = t2 := by
  obtain ⟨i, hi⟩ := List.mem_iff_getElem?.1 k1.1
  obtain ⟨j, hj⟩ := List.mem_iff_getElem?.1 k2.1
  by_cases hij : i = j
  · subst hij
    rw [hi] at hj
    exact Option.some.inj hj
  · refine absurd ?_ (((sysReach_inv hC h1).apart i j t1 t2 hi hj hij).addr true true ?_)
    · rw [k1.2.2, k2.2.2]
    · rw [k1.2.1, k2.2.1]

/-! ## Secrecy -/

omit [DecidableEq P] in
/-- The text of a mended message is not derived. -/
theorem mended_secret {key : KeyName → Bytes} {top1 top : Nat} {cv : Conv} {n1 n : Net} (hd : Spec.Describes key cv.setup top cv n)
    {S : Bool → Prop} {extra : KeyName → Prop} {texts : Bool → Nat → Prop} (hex : ∀ j, extra (.ratchet j) → j ≤ top1) {b : Bool} {i : Nat}
    (hm : Mended ⟨key, top1, top⟩ n b i) (ht : ¬ texts b i) :
    ¬ Derives ((theft key top1 cv n1 S extra texts).Has cv.setup (Placed key top n)) (.text b i) := by
  intro hder
  obtain ⟨j, k, ⟨p1, c, pt, p2, p3⟩, hj⟩ := hm
  obtain ⟨spk, ot, hset, _⟩ := setup_eq cv
  rw [hset] at hder
  rcases ((C89_exact (theft key top1 cv n1 S extra texts) spk ot (Placed key top n)).1 b i).1 hder with h | ⟨j', k', ⟨q1, c', pt', q2, q3⟩, hr⟩
  · exact ht h
  · have := (C101_reach (upTo_theft hex) _).2 j' k' hr
    rw [p2] at q2
    obtain ⟨rfl, rfl⟩ := Prod.mk.inj (Option.some.inj q2)
    rw [p3] at q3
    have e := hd.distinct j j' p1 q1 (Prod.mk.inj q3).1
    have hj : top1 + 2 ≤ j := hj
    omega

/-- **C107, what is mended.** A message is mended if its sender had by then accepted a message under a ratchet key that is new since the
theft, and sent it under the ratchet key it has now. -/
theorem C107_mended {key : KeyName → Bytes} {top1 top spkId : Nat} {cv : Conv} {n1 n : Net} (hn : Timed key top1 top spkId cv n1 n) {b : Bool}
    (hj : n.joined cv b) {x : ECPub} (hx : x ∈ seenKeys (cv.start b) (n.log b)) (hnew : x ∉ n1.keys) {r : SessionRecord}
    (hr : (n.world b).sessions (cv.addr b) = some r) {ch : ChainS} (hch : r.sessionState.senderChain = some ch) {i : Nat} {c : Ciphertext}
    {pt : Bytes} (hi : (n.sent b)[i]? = some (c, pt)) (hk : ch.senderRatchetKey = some (5 :: (header c).1)) :
    Mended ⟨key, top1, top⟩ n b i := by
  obtain ⟨j, k, hp, _⟩ := hn.named.describes.sent b i c pt hi
  refine ⟨j, k, hp, ?_⟩
  obtain ⟨p1, c', pt', p2, p3⟩ := hp
  rw [hi] at p2
  obtain ⟨rfl, rfl⟩ := Prod.mk.inj (Option.some.inj p2)
  have hm := hn.mine b r ch j hj hr hch ⟨p1, by rw [hk, p3]⟩
  obtain ⟨t, ht⟩ := List.mem_iff_getElem?.1 hx
  obtain ⟨_, e⟩ := hn.seen b t x ht
  have hlt := (List.getElem?_eq_some_iff.1 ht).1
  have : ¬ 2 * t + (if b then 0 else 1) ≤ top1 := fun hle => hnew (e ▸ hn.before _ hle)
  show top1 + 2 ≤ j
  omega

/-- **C107, what is mended.** So is one that was accepted, if the peer had accepted a message under an earlier ratchet key of the sender
that is new since the theft too. -/
theorem C107_mended_accepted {key : KeyName → Bytes} {top1 top spkId : Nat} {cv : Conv} {n1 n : Net}
    (hn : Timed key top1 top spkId cv n1 n) {b : Bool} {i : Nat} {c : Ciphertext} {pt : Bytes} (hi : (n.sent b)[i]? = some (c, pt))
    {pre mid post : List ECPub} {y : ECPub} (hs : seenKeys (cv.start (!b)) (n.log (!b)) = pre ++ y :: (mid ++ (header c).1 :: post))
    (hnew : y ∉ n1.keys) : Mended ⟨key, top1, top⟩ n b i := by
  obtain ⟨j, k, hp, _⟩ := hn.named.describes.sent b i c pt hi
  refine ⟨j, k, hp, ?_⟩
  obtain ⟨p1, c', pt', p2, p3⟩ := hp
  rw [hi] at p2
  obtain ⟨rfl, rfl⟩ := Prod.mk.inj (Option.some.inj p2)
  obtain ⟨_, e1⟩ := hn.seen (!b) pre.length y (by rw [hs]; simp)
  obtain ⟨hle, e2⟩ := hn.seen (!b) (pre.length + (mid.length + 1)) (header c).1 (by
    rw [hs, List.getElem?_append_right (by omega)]
    simp)
  have h1 : ¬ 2 * pre.length + (if (!b) = true then 0 else 1) ≤ top1 := fun hle => hnew (e1 ▸ hn.before _ hle)
  rw [p3] at e2
  have := hn.named.describes.distinct _ _ p1 hle e2
  show top1 + 2 ≤ j
  omega

/-- **C107, secrecy.** At the theft the attacker takes the session states and sender-key records of everybody, with every private key
there is, and whatever plaintexts.  They see all messages, then and later.  Then they cannot read a group message under a key announced
since, if the announcements of this key were sent in mended messages, or in conversations begun since, whose base keys and one-time
prekeys they do not have. -/
theorem C107_secret (hC : C.Lawful) {owner : SenderKeyName → P} {enc : SenderKeyName → Bytes → Bytes} {safe : SenderKeyName → Nat → Prop}
    {a1 a : Society P} (h1 : RSocietyReach owner enc safe a1) (h : TSocietyReach owner enc a1 a) :
    ∃ names : Chat P → Naming,
      (∀ t ∈ a.sys.chats, ∃ spkId,
        (∀ t1, WasThen a1.sys t t1 → Timed (names t).key (names t).before (names t).before spkId t.cv (t1.net a1.sys.world) (t1.net a1.sys.world) ∧
          Timed (names t).key (names t).before (names t).now spkId t.cv (t1.net a1.sys.world) (t.net a.sys.world)) ∧
        Named (names t).key (names t).now spkId t.cv (t.net a.sys.world)) ∧
      ∀ (n : SenderKeyName) (id : Nat), Unannounced a1.log n id →
        ∀ loot : Loot P,
          (∀ t ∈ a.sys.chats, (∃ t1, WasThen a1.sys t t1) → ∀ j, loot.keys t (.ratchet j) → j ≤ (names t).before) →
          (∀ t ∈ a.sys.chats, (¬ ∃ t1, WasThen a1.sys t t1) → (∀ b, ¬ loot.keys t (.base b)) ∧ ¬ loot.keys t .oneTime) →
          (∀ t ∈ a.sys.chats, ∀ (b : Bool) (j : Nat) (c : Ciphertext) (pt : Bytes) (k : Nat), (t.sent b)[j]? = some (c, pt) →
            AnnouncesKey enc n (ofKey n id a.log) k pt →
            ¬ loot.texts t b j ∧ ((∃ t1, WasThen a1.sys t t1) → Mended (names t) (t.net a.sys.world) b j)) →
          ∀ (headers : Nat → Bytes) (i : Nat), ¬ loot.said i → ¬ KeyOpenedSince names enc headers loot a1 a n id i := by
  have hsys1 := (C105_society hC h1).1
  have hthief : ThiefReach a1.sys a.sys := by
    clear h1 hsys1
    induction h with
    | theft => exact .theft
    | step _ hs ih =>
      cases hs with
      | talk q _ => exact .step ih q
      | group => exact ih
      | renew => exact ih
  have hpick : ∀ t : Chat P, ∃ na : Naming, t ∈ a.sys.chats → ∃ spkId,
      (∀ t1, WasThen a1.sys t t1 → Timed na.key na.before na.before spkId t.cv (t1.net a1.sys.world) (t1.net a1.sys.world) ∧
        Timed na.key na.before na.now spkId t.cv (t1.net a1.sys.world) (t.net a.sys.world)) ∧
      Named na.key na.now spkId t.cv (t.net a.sys.world) ∧
      ((¬ ∃ t1, WasThen a1.sys t t1) → ∀ (extra : KeyName → Prop) (texts : Bool → Nat → Prop), (∀ b, ¬ extra (.base b)) → ¬ extra .oneTime →
        ∀ (b : Bool) (i : Nat) (c : Ciphertext) (pt : Bytes), (t.sent b)[i]? = some (c, pt) → ¬ texts b i →
          ¬ Derives ((theft na.key na.now t.cv (t.net a.sys.world) (fun _ => False) extra texts).Has t.cv.setup
            (Placed na.key na.now (t.net a.sys.world))) (.text b i)) := by
    intro t
    by_cases ht : t ∈ a.sys.chats
    · rcases C107_each hC hsys1 hthief ht with ⟨t1, k1, k2⟩ | ⟨k1, n0, k2, k3⟩
      · obtain ⟨n0, q1, q2⟩ := C87_each hC hsys1 k1.1
        rw [k1.2.2] at q1 q2
        obtain ⟨key, top1, top, spkId, _, r1, r2, _⟩ := C101_names hC q1 q2 k2
        refine ⟨⟨key, top1, top⟩, fun _ => ⟨spkId, fun t2 k3 => ?_, r2.named, fun hno => absurd ⟨t1, k1⟩ hno⟩⟩
        obtain rfl := wasThen_unique hC hsys1 k1 k3
        exact ⟨r1, r2⟩
      · obtain ⟨key, top, spkId, _, r1, r2⟩ := C98_forward hC k2 k3
        refine ⟨⟨key, 0, top⟩, fun _ => ⟨spkId, fun t2 k3 => absurd ⟨t2, k3⟩ k1, r1, fun _ extra texts e1 e2 b i c pt hi ht hder => ?_⟩⟩
        obtain ⟨b, rfl⟩ : ∃ b', b = !b' := ⟨!b, by simp⟩
        exact ((r2 (fun _ => False) extra texts (fun _ q => q.elim) e1 e2 b i c pt hi ht).1 hder).1
    · exact ⟨⟨fun _ => [], 0, 0⟩, fun q => absurd q ht⟩
  obtain ⟨names, hnames⟩ := Classical.axiomOfChoice hpick
  refine ⟨names, fun t ht => ?_, fun n id hnew loot l1 l2 l3 headers i hsaid => ?_⟩
  · obtain ⟨spkId, q1, q2, _⟩ := hnames t ht
    exact ⟨spkId, q1, q2⟩
  · have hnone : (fun k => ∃ t ∈ a.sys.chats, ∃ (b : Bool) (j : Nat) (c : Ciphertext) (pt : Bytes), (t.sent b)[j]? = some (c, pt) ∧
        AnnouncesKey enc n (ofKey n id a.log) k pt ∧ OpenedSince (names t) a1.sys a.sys loot t b j) = fun _ => False := by
      funext k
      refine propext ⟨?_, fun q => q.elim⟩
      rintro ⟨t, ht, b, j, c, pt, q1, q2, q3⟩
      obtain ⟨m1, m2⟩ := l3 t ht b j c pt k q1 q2
      obtain ⟨spkId, r1, r2, r3⟩ := hnames t ht
      rcases q3 with ⟨t1, w, hder⟩ | ⟨hno, hder⟩
      · exact mended_secret r2.describes (l1 t ht ⟨t1, w⟩) (m2 ⟨t1, w⟩) m1 hder
      · exact r3 hno _ _ (l2 t ht hno).1 (l2 t ht hno).2 b j c pt q1 m1 hder
    unfold KeyOpenedSince
    rw [hnone]
    rw [(C102_healing hC owner safe a1.groups a1.log (C105_society hC h1).2 n id hnew loot.records loot.said headers _).1 i]
    exact hsaid

/-- **C107.** And nothing is lost: whatever the attacker of C87 can deliver to a side that has recovered, the thief can compute, who took all
session states of the conversation. -/
theorem C107_possible (hC : C.Lawful) {s1 s : System P} (h1 : SysReach s1) (h : ThiefReach s1 s) {t t1 : Chat P} (ht : t ∈ s.chats)
    (hw : WasThen s1 t t1) {b : Bool} {type : Nat} {bytes : Bytes} (hrec : Recovered t.cv (t1.net s1.world) (t.net s.world) b)
    (ha : Attack t.cv (t.net s.world) b type bytes) :
    ∃ (key : KeyName → Bytes) (top1 top spkId : Nat) (l : Leak), Timed key top1 top spkId t.cv (t1.net s1.world) (t.net s.world) ∧
      l.UpTo top1 ∧ Spared l t.cv spkId b ∧ Recovered t.cv (t1.net s1.world) (t.net s.world) b ∧
      Craft key top spkId t.cv (t.net s.world) l b type bytes ∧
      l = theft key top1 t.cv (t1.net s1.world) ((t1.net s1.world).joined t.cv) (fun _ => False) (fun _ _ => True) := by
  rcases C107_each hC h1 h ht with ⟨t2, k1, k2⟩ | ⟨k1, _⟩
  · obtain rfl := wasThen_unique hC h1 hw k1
    obtain ⟨n0, q1, q2⟩ := C87_each hC h1 k1.1
    rw [k1.2.2] at q1 q2
    obtain ⟨key, top1, top, spkId, _, r1, r2, r3⟩ := C101_names hC q1 q2 k2
    obtain ⟨e1, e2⟩ := C101_theft hC q1 q2 r1 (S := (t1.net s1.world).joined t.cv) (fun c hc => hc) (extra := fun _ => False)
      (fun j hj => hj.elim) (fun _ _ => True)
    exact ⟨key, top1, top, spkId, _, r2, e1, e2 b (fun q => q) (fun _ q => q), hrec, r3 _ _ _ _ ha, rfl⟩
  · exact absurd ⟨t1, hw⟩ k1

end

/-! ## Non-vacuity: the society of C88, seven exchanges after a theft -/

section
attribute [local instance] toy
open Example Spec

/-- Alice writes to Bob and Bob to Alice; so it goes `k` times. -/
def socExchange : Nat → Society (Fin 3) → Option (Society (Fin 3))
  | 0, a => some a
  | k + 1, a => (socExchange k a).bind fun a => (socSend a 0 true [97]).bind fun a =>
    (socDeliver a 0 false (k + 1) (key (.ofNat (100 + 2 * k)))).bind fun a =>
    (socSend a 0 false [98]).bind fun a => socDeliver a 0 true k (key (.ofNat (101 + 2 * k)))

/-- What side `false` of the first conversation is brought then: a message of the other side with a byte changed. -/
def thBytes (s : System (Fin 3)) : Bytes :=
  match s.chats[0]? with
  | none => []
  | some t => lastByteChanged (sentInner (t.net s.world) true 6)

def thForge (a : Society (Fin 3)) : Option (Society (Fin 3)) :=
  match a.sys.chats[0]? with
  | none => none
  | some t => (sysAttack a.sys 0 false 2 (thBytes a.sys) (key 130) (key 131)).map fun s =>
      ⟨s, a.groups, a.log, noted a.inbox (.received (t.party false) (t.party true)
        (receive (a.sys.world (t.party false)) (t.cv.addr false) 2 (thBytes a.sys) (key 130) (fun _ => key 131)).result)⟩

/-- Alice renews the key of the group, sends a message under the new one, and the announcement to Bob. -/
def thRenew (a : Society (Fin 3)) : Society (Fin 3) :=
  ⟨a.sys, fun x => if x = 0 then (GroupCall.create grp newRand).next (emptied (a.groups 0) grp) else a.groups x,
    a.log ++ [⟨0, .create grp newRand, ((GroupCall.create grp newRand).run (emptied (a.groups 0) grp)).result⟩], a.inbox⟩
def thSay (a : Society (Fin 3)) : Society (Fin 3) := socCall (thRenew a) 0 (.encrypt grp [5] grpSig)

def thRecovered (a1 a : Society (Fin 3)) : Bool :=
  match a1.sys.chats, a.sys.chats with
  | [t1, _], [t, u] =>
    let seen := seenKeys (t.cv.start false) ((t.net a.sys.world).log false)
    decide (t1.party true ≠ u.party true) && decide (5 < seen.length) && (seen[seen.length - 6]?.any fun x => decide (x ∉ t1.keys))
  | _, _ => false

def thMended (a1 a : Society (Fin 3)) : Bool :=
  match a1.sys.chats, a.sys.chats with
  | [t1, u1], [t, u] =>
    decide (u1.party true ≠ t.party true) &&
    [true, false].all (fun b => (u.sent b).all fun x => x.2 != 1 :: newDist.serialized) &&
    (t.sent false).all (fun x => x.2 != 1 :: newDist.serialized) &&
    ((t.sent true).take 8).all (fun x => x.2 != 1 :: newDist.serialized) && decide ((t.sent true).length = 9) &&
    ((t.sent true)[8]?.any fun x => x.2 == 1 :: newDist.serialized && ((a.sys.world (t.party true)).sessions (t.cv.addr true)).any fun r =>
      r.sessionState.senderChain.any fun ch => ch.senderRatchetKey == some (5 :: (header x.1).1)) &&
    ((seenKeys (t.cv.start true) ((t.net a.sys.world).log true)).getLast?.any fun x => decide (x ∉ t1.keys))
  | _, _ => false

def thGroup (a1 a2 a : Society (Fin 3)) : Bool :=
  a2.log.all (fun e => !About grp 78 e) && a1.log.all (fun e => !About grp 78 e) &&
  sentUnder grp (ofKey grp 78 a.log) == [⟨grp, [5], newMsg⟩] && createdB (thSay a2).log newDist.serialized &&
  (ofKey grp 78 a.log).all (fun e => match e.reply with
    | .ok (.distribution d) => d.serialized == newDist.serialized
    | _ => true) &&
  (match ofKey grp 78 a.log with
    | ⟨_, .create n _, .ok (.distribution d)⟩ :: _ => decide (n = grp ∧ d.serialized = newDist.serialized)
    | _ => false)

theorem th_check : soc2.any (fun a1 => (socExchange 7 a1).any fun a => (thForge a).any fun a2 =>
    (socSend (thSay a2) 0 true (1 :: newDist.serialized)).any fun a3 => thRecovered a1 a && thMended a1 a3 && thGroup a1 a2 a3) = true := by
  decide +kernel

theorem soc2_reach {a : Society (Fin 3)} (h : soc2 = some a) : RSocietyReach socOwner socEnc (fun _ _ => True) a := by
  have r0 : RSocietyReach socOwner socEnc (fun _ _ => True) soc0 :=
    talk_renew toy_lawful (a := ⟨sys1, fun _ => GroupStore.empty, [], fun _ => []⟩) (e := .unseen)
      (talk_renew toy_lawful (a := ⟨sys0, fun _ => GroupStore.empty, [], fun _ => []⟩) (e := .unseen) (.init (world := sys0.world))
        sys_start1 trivial) sys_start2 trivial
  have r1 : RSocietyReach socOwner socEnc (fun _ _ => True) soc1 :=
    .step r0 (.group 0 (.create grp grpRand) ⟨rfl, by decide +kernel, by decide +kernel⟩)
  unfold soc2 at h
  obtain ⟨a1, h1, h2⟩ := Option.bind_eq_some_iff.1 h
  exact soc_talk (soc_talk r1 (socSend_talk (by decide +kernel) h1)) (socDeliver_talk h2)

theorem socSend_plain {a a' : Society (Fin 3)} {k : Nat} {b : Bool} {x : Bytes} (h0 : x ≠ [0]) (h1 : x.head? ≠ some 1)
    (h : socSend a k b x = some a') :
    ∃ e sys, SysStep a.sys e sys ∧ HonestEvent socOwner socEnc a.log e ∧ a' = ⟨sys, a.groups, a.log, noted a.inbox e⟩ := by
  obtain ⟨s, hs, rfl⟩ := Option.map_eq_some_iff.1 h
  obtain ⟨t, ht, hs⟩ := sysSend_step hs
  refine ⟨_, _, hs, ?_, rfl⟩
  intro n x' he _
  unfold socEnc at he
  split at he
  · subst he
    exact absurd rfl h1
  · exact absurd he h0

theorem th_talk {safe : SenderKeyName → Nat → Prop} {a1 a a' : Society (Fin 3)} (h1 : RSocietyReach socOwner socEnc safe a1)
    (h : TSocietyReach socOwner socEnc a1 a)
    (hs : ∃ e sys, SysStep a.sys e sys ∧ HonestEvent socOwner socEnc a.log e ∧ a' = ⟨sys, a.groups, a.log, noted a.inbox e⟩) :
    TSocietyReach socOwner socEnc a1 a' := by
  obtain ⟨e, sys, k1, k2, rfl⟩ := hs
  refine .step h (.talk (sysStep_imp k1 fun t ht b type bytes hc => .inl ?_) k2)
  obtain ⟨n0, q1, q2⟩ := C87_each toy_lawful (C105_society toy_lawful (C107_society toy_lawful h1 h)).1 ht
  exact attack_outside toy_lawful q1 q2 hc

theorem socExchange_reach {safe : SenderKeyName → Nat → Prop} {a1 : Society (Fin 3)} (h1 : RSocietyReach socOwner socEnc safe a1) :
    ∀ (k : Nat) {a : Society (Fin 3)}, socExchange k a1 = some a → TSocietyReach socOwner socEnc a1 a
  | 0, a, h => by obtain rfl := Option.some.inj h; exact .theft
  | k + 1, a, h => by
    unfold socExchange at h
    simp only [Option.bind_eq_some_iff] at h
    obtain ⟨b, hb, c, hc, d, hd, e, he, hf⟩ := h
    exact th_talk h1 (th_talk h1 (th_talk h1 (th_talk h1 (socExchange_reach h1 k hb) (socSend_plain (by decide) (by decide) hc)) (socDeliver_talk hd))
      (socSend_plain (by decide) (by decide) he)) (socDeliver_talk hf)

theorem sysAttack_by {s s' : System (Fin 3)} {k : Nat} {b : Bool} {type : Nat} {bytes seed seed0 : Bytes} {t : Chat (Fin 3)}
    (h : sysAttack s k b type bytes seed seed0 = some s') (ht : s.chats[k]? = some t) :
    Attack t.cv (t.net s.world) b type bytes ∧ ∀ A : Chat (Fin 3) → Net → Bool → Nat → Bytes → Prop, A t (t.net s.world) b type bytes →
      SysStepBy A s (.received (t.party b) (t.party !b)
        (receive (s.world (t.party b)) (t.cv.addr b) type bytes seed (fun _ => seed0)).result) s' := by
  unfold sysAttack at h
  obtain ⟨h, hk⟩ := Option.filter_eq_some_iff.1 h
  unfold sysMove at h
  simp only [ht] at h
  obtain ⟨n, hn, rfl⟩ := Option.map_eq_some_iff.1 h
  obtain ⟨acc, rfl, h1, h2, h3, h4, h5, h6⟩ := convAttack_spec toy_lawful hn
  simp only [upd_same, ht, Option.any_some] at hk ⊢
  refine ⟨h1, fun A hA => Spec.SysStepBy.attack (seeds := fun _ => seed0) ht hA h2 h3 h4 h5 h6 ?_⟩
  intro u hu hp i hi hb
  unfold keptB at hk
  rw [ht] at hk
  have := List.all_eq_true.1 hk u hu
  rw [hp, hi] at this
  simp only [ne_eq, not_true_eq_false, decide_false, Bool.false_or, Option.all_some, Bool.or_eq_true, Bool.and_eq_true,
    Bool.not_eq_true', beq_iff_eq, decide_eq_true_eq] at this
  rcases this with ⟨h, h'⟩ | h
  · exact absurd h' (hb h)
  · exact h

theorem thief_of_society {owner : SenderKeyName → Fin 3} {enc : SenderKeyName → Bytes → Bytes} {a1 a : Society (Fin 3)}
    (h : TSocietyReach owner enc a1 a) : ThiefReach a1.sys a.sys := by
  induction h with
  | theft => exact .theft
  | step _ hs ih =>
    cases hs with
    | talk q _ => exact .step ih q
    | group => exact ih
    | renew => exact ih

/-- The attacker who has stolen all session states delivers the changed message: `C107_possible`. -/
theorem thForge_reach {safe : SenderKeyName → Nat → Prop} {a1 a a2 : Society (Fin 3)} (h1 : RSocietyReach socOwner socEnc safe a1)
    (h : TSocietyReach socOwner socEnc a1 a) (hc : thRecovered a1 a = true) (h2 : thForge a = some a2) :
    TSocietyReach socOwner socEnc a1 a2 ∧ ∃ t t1, a.sys.chats[0]? = some t ∧ WasThen a1.sys t t1 ∧
      Recovered t.cv (t1.net a1.sys.world) (t.net a.sys.world) false := by
  have hsys := (C105_society toy_lawful h1).1
  have hth := thief_of_society h
  unfold thRecovered at hc
  split at hc
  swap
  · cases hc
  rename_i t1 u1 t u e1 e2
  simp only [Bool.and_eq_true, decide_eq_true_eq] at hc
  obtain ⟨⟨c1, c2⟩, c3⟩ := hc
  have ht : a.sys.chats[0]? = some t := by rw [e2]; rfl
  have hw : WasThen a1.sys t t1 := by
    obtain ⟨x, hx, hw⟩ := (thief_inv toy_lawful hsys hth).1 t1 (by rw [e1]; exact List.mem_cons_self)
    rw [e2] at hx
    rcases List.mem_cons.1 hx with rfl | hx
    · exact hw
    · obtain rfl := List.mem_singleton.1 hx
      exact absurd (congrFun hw.2.1 true) c1
  have hrec : Recovered t.cv (t1.net a1.sys.world) (t.net a.sys.world) false := by
    obtain ⟨x, h3, h4⟩ := (Option.any_eq_true _ _).1 c3
    obtain ⟨h5, rfl⟩ := List.getElem?_eq_some_iff.1 h3
    refine ⟨(seenKeys (t.cv.start false) ((t.net a.sys.world).log false)).take ((seenKeys (t.cv.start false) ((t.net a.sys.world).log false)).length - 6), _,
      (seenKeys (t.cv.start false) ((t.net a.sys.world).log false)).drop ((seenKeys (t.cv.start false) ((t.net a.sys.world).log false)).length - 6 + 1),
      ?_, of_decide_eq_true h4, ?_⟩
    · rw [List.getElem_cons_drop, List.take_append_drop]
    · rw [List.length_drop]; omega
  refine ⟨?_, t, t1, ht, hw, hrec⟩
  unfold thForge at h2
  simp only [ht] at h2
  obtain ⟨s, hs, rfl⟩ := Option.map_eq_some_iff.1 h2
  obtain ⟨q1, q2⟩ := sysAttack_by hs ht
  obtain ⟨key, top1, top, spkId, l, k1, k2, k3, k4, k5, _⟩ := C107_possible toy_lawful hsys hth (List.mem_of_getElem? ht) hw hrec q1
  exact .step h (.talk (q2 _ (.inr ⟨t1, hw, key, top1, top, spkId, l, k1, k2, k3, k4, k5⟩)) trivial)

/-- The hypotheses of C107 are met, also of `C107_secret`: after the society of C88 has run for a while, somebody takes all session states,
all sender-key records and all private ratchet keys.  Alice and Bob go on; the thief delivers something to Bob, who has recovered; Alice
renews the sender key and sends the announcement to Bob.  The thief cannot read what Alice sends to the group then. -/
example : ∃ (a1 a : Society (Fin 3)) (names : Chat (Fin 3) → Naming),
    RSocietyReach socOwner socEnc (fun _ _ => True) a1 ∧ TSocietyReach socOwner socEnc a1 a ∧
    (∃ a0 t t1, TSocietyReach socOwner socEnc a1 a0 ∧ t ∈ a0.sys.chats ∧ WasThen a1.sys t t1 ∧
      Recovered t.cv (t1.net a1.sys.world) (t.net a0.sys.world) false) ∧
    (sentUnder grp (ofKey grp 78 a.log))[0]? = some ⟨grp, [5], newMsg⟩ ∧
    (∃ t ∈ a.sys.chats, ∃ (c : Ciphertext) (pt : Bytes), (t.sent true)[8]? = some (c, pt) ∧ AnnouncesKey socEnc grp (ofKey grp 78 a.log) 0 pt) ∧
    ¬ KeyOpenedSince names socEnc (fun _ => []) ⟨fun _ => True, fun _ => True,
      fun t x => (∃ t1, WasThen a1.sys t t1) ∧ ∀ j, x = .ratchet j → j ≤ (names t).before, fun _ b j => b = false ∨ j < 8, fun _ => False⟩ a1 a grp 78 0 := by
  have hc := th_check
  obtain ⟨a1, g1, hc⟩ := (Option.any_eq_true _ _).1 hc
  obtain ⟨a0, g2, hc⟩ := (Option.any_eq_true _ _).1 hc
  obtain ⟨a2, g3, hc⟩ := (Option.any_eq_true _ _).1 hc
  obtain ⟨a, g4, hc⟩ := (Option.any_eq_true _ _).1 hc
  simp only [Bool.and_eq_true] at hc
  obtain ⟨⟨c1, c2⟩, c3⟩ := hc
  have r1 := soc2_reach g1
  have r2 := socExchange_reach r1 7 g2
  obtain ⟨r3, t0, t1, p1, p2, p3⟩ := thForge_reach r1 r2 c1 g3
  unfold thGroup at c3
  simp only [Bool.and_eq_true, beq_iff_eq] at c3
  obtain ⟨⟨⟨⟨⟨d1, d2⟩, d3⟩, d4⟩, d5⟩, d6⟩ := c3
  have hnone : ∀ {log : RoomLog (Fin 3)}, log.all (fun e => !About grp 78 e) = true → Unannounced log grp 78 := by
    intro log hl d hd e
    obtain ⟨x, hx, q⟩ := hd
    have k1 := About.announced (⟨x, List.mem_singleton.2 rfl, q⟩ : Announced grp [x] d)
    have k2 := List.all_eq_true.1 hl x hx
    rw [e] at k1
    rw [k1] at k2
    cases k2
  have r4 : TSocietyReach socOwner socEnc a1 (thRenew a2) :=
    .step r3 (.renew grp newRand (by decide +kernel) (by decide +kernel) (by decide +kernel) fun d hd e => hnone d1 d hd e)
  have r5 : TSocietyReach socOwner socEnc a1 (thSay a2) := .step r4 (.group 0 (.encrypt grp [5] grpSig) ⟨by decide +kernel, by decide +kernel⟩)
  have r6 : TSocietyReach socOwner socEnc a1 a := th_talk r1 r5 (socSend_talk d4 g4)
  have hann : ∀ (k : Nat) (pt : Bytes), AnnouncesKey socEnc grp (ofKey grp 78 a.log) k pt → pt = 1 :: newDist.serialized := by
    rintro k pt ⟨pre, e, post, rnd, d, q1, q2, q3, q4, _⟩
    have k1 := List.all_eq_true.1 d5 e (by rw [q1]; simp)
    rw [q3] at k1
    have k1 : d.serialized = newDist.serialized := by simpa using k1
    rw [q4, k1]
    exact if_pos rfl
  obtain ⟨names, n1, n2⟩ := C107_secret toy_lawful r1 r6
  unfold thMended at c2
  split at c2
  swap
  · cases c2
  rename_i s1 u1 t u e1 e2
  simp only [Bool.and_eq_true, decide_eq_true_eq] at c2
  obtain ⟨⟨⟨⟨⟨⟨f1, f2⟩, f3⟩, f4⟩, f5⟩, f6⟩, f7⟩ := c2
  have hno : ∀ {l : List (Ciphertext × Bytes)}, l.all (fun x => x.2 != 1 :: newDist.serialized) = true → ∀ (j : Nat) (c : Ciphertext) (pt : Bytes),
      l[j]? = some (c, pt) → pt ≠ 1 :: newDist.serialized := by
    intro l hl j c pt hj e
    have := List.all_eq_true.1 hl _ (List.mem_of_getElem? hj)
    rw [e] at this
    simp at this
  have honly : ∀ t' ∈ a.sys.chats, ∀ (b : Bool) (j : Nat) (c : Ciphertext) (pt : Bytes), (t'.sent b)[j]? = some (c, pt) →
      pt = 1 :: newDist.serialized → t' = t ∧ b = true ∧ j = 8 := by
    intro t' ht' b j c pt hj hpt
    rw [e2] at ht'
    rcases List.mem_cons.1 ht' with rfl | ht'
    · cases b with
      | false => exact absurd hpt (hno f3 j c pt hj)
      | true =>
        have hlt := (List.getElem?_eq_some_iff.1 hj).1
        by_cases h8 : j < 8
        · exact absurd hpt (hno f4 j c pt (by rw [List.getElem?_take, if_pos h8]; exact hj))
        · exact ⟨rfl, rfl, by omega⟩
    · obtain rfl := List.mem_singleton.1 ht'
      exact absurd hpt (hno (List.all_eq_true.1 f2 b (by cases b <;> decide)) j c pt hj)
  refine ⟨a1, a, names, r1, r6, ⟨a0, t0, t1, r2, List.mem_of_getElem? p1, p2, p3⟩, by rw [d3]; rfl, ?_, ?_⟩
  · obtain ⟨x, f8, f9⟩ := (Option.any_eq_true _ _).1 f6
    simp only [Bool.and_eq_true, beq_iff_eq] at f9
    refine ⟨t, by rw [e2]; exact List.mem_cons_self, x.1, x.2, f8, ?_⟩
    split at d6
    · rename_i m n rnd d rest he
      obtain ⟨rfl, d7⟩ := of_decide_eq_true d6
      refine ⟨[], _, rest, rnd, d, he, rfl, rfl, ?_, rfl⟩
      rw [f9.1, d7]
      exact (if_pos rfl).symm
    · cases d6
  refine n2 grp 78 (hnone d2) _ ?_ ?_ ?_ _ 0 (fun q => q)
  · exact fun t' ht' _ j hj => hj.2 j rfl
  · exact fun t' ht' hno => ⟨fun b q => hno q.1, fun q => hno q.1⟩
  · intro t' ht' b j c pt k hj hk
    obtain ⟨rfl, rfl, rfl⟩ := honly t' ht' b j c pt hj (hann k pt hk)
    refine ⟨?_, ?_⟩
    · rintro (q | q)
      · cases q
      · omega
    · rintro ⟨x, hx⟩
      have hx1 : x = s1 := by
        have := hx.1
        rw [e1] at this
        rcases List.mem_cons.1 this with rfl | this
        · rfl
        · obtain rfl := List.mem_singleton.1 this
          exact absurd (congrFun hx.2.1 true) f1
      subst hx1
      obtain ⟨spkId, q, _⟩ := n1 _ ht'
      obtain ⟨x', f6a, f6⟩ := (Option.any_eq_true _ _).1 f6
      rw [Bool.and_eq_true] at f6
      obtain ⟨r, f6b, f6⟩ := (Option.any_eq_true _ _).1 f6.2
      obtain ⟨ch, f6c, f6⟩ := (Option.any_eq_true _ _).1 f6
      obtain ⟨y, f7a, f7⟩ := (Option.any_eq_true _ _).1 f7
      rw [hj] at f6a
      obtain rfl := Option.some.inj f6a
      exact C107_mended (q _ hx).2 (fun _ q => by cases q) (List.mem_of_getLast? f7a) (of_decide_eq_true f7) f6b f6c hj (by simpa using f6)

end
end Axolotl
