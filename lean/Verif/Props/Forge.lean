import Verif.Proofs.Craft

/-! # C95: the attacker of C86 is one who computes -/

namespace Axolotl
section
variable [C : Crypto]
open SessionState
open Spec (GoodPair Net Conv Step Start header AStep ASteps Attack Recorded Term KeyName Leak Derives Labelled Placed Spells Describes Begins
  Named Tagged Offered OfferedFirst OfSetup spkName Computed Crafted CraftedSetup Craft Outside CStep CSteps Verifies)

omit C in
/-- **C95, what can be computed.** From a leak and the MACs of messages, whatever the attacker computes: they get a MAC key of the
conversation exactly if the leak gives it; a MAC key after a ratchet step with a key of theirs exactly if they can compute the root
key; a MAC key of another setup exactly if they have one of the private keys of the first agreement.  And a MAC under a key of the
conversation exactly if they have that key, or it is the MAC of a message. -/
theorem C95_exact (l : Leak) (spk : KeyName) (oneTime : Option KeyName) (tags : Bool → Nat → Nat → Bytes → Prop) :
    let s := Term.setup spk oneTime
    let P := l.setup spk oneTime
    (∀ j k, Derives (l.Sees s tags) (Term.macKey s j k) ↔ l.reads P j k) ∧
    (∀ j d k, Derives (l.Sees s tags) (Term.strayMac (Term.root s j) d k) ↔ l.root P j) ∧
    (∀ x y rest d k, Derives (l.Sees s tags) (Term.strayMac (Term.otherRoot (.agree x y) rest) d k) ↔ l.owns x ∨ l.owns y) ∧
    (∀ j k y, Derives (l.Sees s tags) (.hmac (Term.macKey s j k) y) ↔
      (l.reads P j k ∧ Derives (l.Sees s tags) y) ∨ ∃ b body, tags b j k body ∧ Term.hmac (Term.macKey s j k) y = .tag s b j k body) :=
  ⟨sees_macKey, sees_strayMac, sees_otherMac, fun _ _ _ => sees_hmac⟩

/-- Names, with the ghost state they come from. -/
theorem names_ghost (hC : C.Lawful) {cv : Conv} {n0 n : Net} (h0 : Start cv n0) (h : ASteps cv n0 n) :
    ∃ (key : KeyName → Bytes) (ids : Bool → ECPub) (hd : PkHeader) (g : Ghost .v3),
      Begins key cv n0 ∧ Named key g.top hd.signedPreKeyId cv n ∧ (∀ b, (n.world b).identityKeyPair.pub = ids b) ∧
      GInv cv ids n g ∧ WInv cv ids hd n g ∧ ∀ j, j ≤ g.top → C.genPub (key (.ratchet j)) = (g.E j).pub := by
  obtain ⟨ids, kb, ks, ko, h1, hd, g0, ⟨h2, h2'⟩, h3⟩ := start_full hC h0
  obtain ⟨⟨⟨g, hg, hw, hext⟩, _⟩, hk⟩ := asteps_from hC h1 ⟨⟨g0, h2, h2', .refl _ _⟩, fun _ h => h⟩ h
  refine ⟨_, ids, hd, g, ?_, named_all hC h0 h1 h3 hk h2' hg hw hext (.refl n.keys g), fun b => by rw [(hk b).pair]; exact h1 b,
    hg, hw, fun j hj => ((hg.good j hj).pub).symm⟩
  exact h3.begins

/-- **C95, names.** At any moment of a conversation with an attacker the keys have names that fit it. -/
theorem C95_names (hC : C.Lawful) {cv : Conv} {n0 n : Net} (h0 : Start cv n0) (h : ASteps cv n0 n) :
    ∃ (key : KeyName → Bytes) (top spkId : Nat), Begins key cv n0 ∧ Named key top spkId cv n := by
  obtain ⟨key, _, hd, g, h1, h2, _⟩ := names_ghost hC h0 h
  exact ⟨key, g.top, hd.signedPreKeyId, h1, h2⟩

/-- **C95, the keys that count.** Every MAC key under which a message may verify on the session is that of one of the terms
`Offered`; and on a session that a setup message under the peer's identity key makes, of one of the terms `OfferedFirst`. -/
theorem C95_offered (hC : C.Lawful) {cv : Conv} {n0 n : Net} (h0 : Start cv n0) (h : ASteps cv n0 n) {key : KeyName → Bytes}
    {top spkId : Nat} (hn : Named key top spkId cv n) (b : Bool) :
    (∀ r eph k x, n.joined cv b → (n.world b).sessions (cv.addr b) = some r → Spec.MacKey r.sessionState eph k x →
      ∃ M, Offered key cv.setup top r.sessionState eph k M ∧ M.value key (fun _ _ => []) = x) ∧
    (∀ m s x, m.identityKey = (n.world (!b)).identityKeyPair.pub → Spec.SetUp (n.world b) m s →
      Spec.MacKey s m.message.senderRatchetKey m.message.counter x →
      ∃ M, OfferedFirst key top spkId cv b m M ∧ M.value key (fun _ _ => []) = x) :=
  ⟨fun _ _ _ _ hj hr hx => offered_current hC h0 h hn hj hr hx, fun _ _ _ hid hs hx => offered_first hC h0 h hn hid hs hx⟩

theorem identity_len (hC : C.Lawful) {cv : Conv} {n0 n : Net} (h0 : Start cv n0) (h : ASteps cv n0 n) {key : KeyName → Bytes} {s : Term}
    {top : Nat} (hn : Describes key s top cv n) (b : Bool) : (C.genPub (key (.identity b))).length = 32 := by
  obtain ⟨_, _, _, _, hgood, _, _⟩ := craft_moment hC h0 h
  have := (hgood b).pub_len hC
  rw [hn.identity b] at this
  exact this

/-- A computed MAC under a key of the conversation is that of a message, or the key is known. -/
theorem computed_tag (hC : C.Lawful) {cv : Conv} {n0 n : Net} (h0 : Start cv n0) (h : ASteps cv n0 n) {key : KeyName → Bytes}
    {top : Nat} (hn : Describes key cv.setup top cv n) {l : Leak} {j k : Nat} {y : Term} {body them me : Bytes}
    (hd : Derives (l.Sees cv.setup (Tagged key top n)) (.hmac (.macKey cv.setup j k) y)) (h1 : them.length = 32) (h2 : me.length = 32)
    (hy : y.value key (fun _ _ => []) = (5 :: them) ++ (5 :: me) ++ body) :
    Derives (l.Sees cv.setup (Tagged key top n)) (.macKey cv.setup j k) ∨
      ∃ (b : Bool) (i : Nat) (c : Ciphertext) (pt : Bytes), (n.sent b)[i]? = some (c, pt) ∧ Placed key top n b i j k ∧
        c.inner.serialized = body ++ ((Term.hmac (.macKey cv.setup j k) y).value key fun _ _ => []).take 8 := by
  obtain ⟨spk, ot, hs, _⟩ := setup_eq cv
  rw [hs] at hd ⊢
  rcases sees_hmac.1 hd with ⟨hr, _⟩ | ⟨b, body', ht, e⟩
  · exact Or.inl ((sees_macKey j k).2 hr)
  · obtain ⟨i, c, pt, s1, s2, s3⟩ := tagged_sent hC hn ht
    have := tag_body e hy (identity_len hC h0 h hn) h1 h2
    subst this
    refine Or.inr ⟨b, i, c, pt, s1, s2, ?_⟩
    rw [s3, hs, e]

/-- **C95, forged messages.** Whatever has leaked: if a computed message verifies on the session of side `b`, then the peer sent
these bytes, or the attacker can compute a MAC key that the session offers for it (which is when, says `C95_exact`). -/
theorem C95_current (hC : C.Lawful) {cv : Conv} {n0 n : Net} (h0 : Start cv n0) (h : ASteps cv n0 n) {key : KeyName → Bytes}
    {top spkId : Nat} (hn : Named key top spkId cv n) {l : Leak} {b : Bool} {m : WhisperMessage} (hj : n.joined cv b)
    {r : SessionRecord} (hr : (n.world b).sessions (cv.addr b) = some r)
    (hm : Computed key (l.Sees cv.setup (Tagged key top n)) (Offered key cv.setup top r.sessionState m.senderRatchetKey m.counter)
      r.sessionState m) (hv : Verifies r.sessionState m) :
    (∃ (i : Nat) (c : Ciphertext) (pt : Bytes), (n.sent (!b))[i]? = some (c, pt) ∧ c.inner.serialized = m.serialized) ∨
    ∃ M, Offered key cv.setup top r.sessionState m.senderRatchetKey m.counter M ∧ Derives (l.Sees cv.setup (Tagged key top n)) M := by
  obtain ⟨body, t, c1, c2, c3⟩ := hm
  obtain ⟨M, y, them, me, d1, rfl, d3, d4, d5⟩ := c3 hv
  obtain ⟨ids, hd, g, hid, hgood, hg, hw⟩ := craft_moment hC h0 h
  obtain ⟨hl1, hl2⟩ : them.length = 32 ∧ me.length = 32 := by
    rcases hw.sides b with ⟨r', q1, q2, _⟩ | ⟨hb, q⟩
    · rw [hr] at q1
      obtain rfl := Option.some.inj q1
      exact ⟨keyOf_len q2.rid (by rw [← hid]; exact (hgood _).pub_len hC) d3,
        keyOf_len q2.lid (by rw [← hid]; exact (hgood _).pub_len hC) d4⟩
    · exact absurd q.accepted (hj q.waits hb)
  have conv : ∀ {j : Nat}, (j % 2 = 1 ↔ b = false) → M = .macKey cv.setup j m.counter →
      (∃ (i : Nat) (c : Ciphertext) (pt : Bytes), (n.sent (!b))[i]? = some (c, pt) ∧ c.inner.serialized = m.serialized) ∨
      Derives (l.Sees cv.setup (Tagged key top n)) M := by
    rintro j hpar rfl
    rcases computed_tag hC h0 h hn.describes c2 hl1 hl2 d5 with hk | ⟨b', i, c, pt, s1, s2, s3⟩
    · exact Or.inr hk
    · have := hn.turns _ _ _ _ s2
      obtain rfl : b' = !b := by cases b <;> cases b' <;> simp_all
      exact Or.inl ⟨i, c, pt, s1, by rw [s3, c1]⟩
  cases d1 with
  | chain a1 a2 a3 => exact (conv (hn.theirs b r _ _ hj hr a1 a2) rfl).imp id fun x => ⟨_, .chain a1 a2 a3, x⟩
  | @next c j a1 a2 a3 a4 =>
    have := hn.mine b r _ _ hj hr a1 a2
    refine (conv ?_ rfl).imp id fun x => ⟨_, .next a1 a2 a3 a4, x⟩
    cases b <;> simp at this ⊢ <;> omega
  | @stray c j d a1 a2 a3 a4 =>
    obtain ⟨spk, ot, hs, _⟩ := setup_eq cv
    refine Or.inr ⟨_, .stray a1 a2 a3 a4, ?_⟩
    rw [hs] at c2 ⊢
    exact sees_stray_hmac used_root c2

/-- **C95, forged setup messages.** The same for a message that sets up a new session, under the peer's identity key. -/
theorem C95_setup (hC : C.Lawful) {cv : Conv} {n0 n : Net} (h0 : Start cv n0) (h : ASteps cv n0 n) {key : KeyName → Bytes}
    {top spkId : Nat} (hn : Named key top spkId cv n) {l : Leak} {b : Bool} {m : PreKeyWhisperMessage}
    (hid : m.identityKey = (n.world (!b)).identityKeyPair.pub) (hver : m.version = 3)
    (hk : ¬ Spec.alreadyKnown (n.world b) (cv.addr b) m) {s : SessionState} (hs : Spec.SetUp (n.world b) m s)
    (hm : Computed key (l.Sees cv.setup (Tagged key top n)) (OfferedFirst key top spkId cv b m) s m.message)
    (hv : Verifies s m.message) :
    (∃ (i : Nat) (p : PreKeyWhisperMessage) (pt : Bytes), (n.sent (!b))[i]? = some (.preKey p, pt) ∧ p.baseKey = m.baseKey ∧
      p.preKeyId = m.preKeyId ∧ p.signedPreKeyId = m.signedPreKeyId ∧ p.message.serialized = m.message.serialized) ∨
    ∃ M, OfferedFirst key top spkId cv b m M ∧ Derives (l.Sees cv.setup (Tagged key top n)) M := by
  obtain ⟨body, t, c1, c2, c3⟩ := hm
  obtain ⟨M, y, them, me, d1, rfl, d3, d4, d5⟩ := c3 hv
  obtain ⟨ids, hd, g, hids, hgood, hg, hw⟩ := craft_moment hC h0 h
  obtain ⟨hl1, hl2⟩ : them.length = 32 ∧ me.length = 32 := by
    obtain ⟨_, _, _, _, _, _, _, _, _, _, _, rfl⟩ := hs
    exact ⟨keyOf_len rfl (by rw [hid]; exact (hgood _).pub_len hC) d3, keyOf_len rfl ((hgood _).pub_len hC) d4⟩
  cases d1 with
  | join a1 a2 a3 =>
    obtain ⟨hwt, rfl, o1, o2, o3⟩ := id a1
    have hw' : Waiting cv ids hd n g := by
      refine hw.waiting hwt ?_
      by_contra hacc
      rcases hw.sides false with ⟨r, q1, q2, q3, q4⟩ | ⟨_, q⟩
      · refine hk ⟨r, q1, r.sessionState, List.mem_cons_self .., ?_, ?_⟩
        · rw [q2.version, hver]; rfl
        · rw [hn.answered r hwt hacc q1, o1]; rfl
      · exact hacc q.accepted
    rcases computed_tag hC h0 h hn.describes c2 hl1 hl2 d5 with hk | ⟨b', i, c, pt, s1, s2, s3⟩
    · exact Or.inr ⟨_, .join a1 a2 a3, hk⟩
    · obtain rfl : b' = true := (hn.turns _ _ _ _ s2).1 rfl
      obtain ⟨p, rfl⟩ := hw'.announced i c pt s1
      obtain ⟨_, p1, p2, p3⟩ := hn.announced i p pt s1
      exact Or.inl ⟨i, p, pt, s1, by rw [p1, o1], by rw [p2, o2], by rw [p3, o3], by rw [c1]; exact s3⟩
  | early a1 a2 a3 =>
    obtain ⟨spk, ot, hs, _⟩ := setup_eq cv
    refine Or.inr ⟨_, .early a1 a2 a3, ?_⟩
    rw [hs] at c2 ⊢
    exact sees_stray_hmac used_root c2
  | @other rest d a1 =>
    obtain ⟨spk, ot, hs, _⟩ := setup_eq cv
    refine Or.inr ⟨_, .other (rest := rest) (d := d) a1, ?_⟩
    rw [hs] at c2 ⊢
    exact sees_stray_hmac used_otherRoot c2

omit C in
/-- Whoever is outside can compute none of the keys. -/
theorem outside_none {l : Leak} {cv : Conv} {spkId : Nat} {b : Bool} (ho : Outside l cv spkId b) {spk : KeyName} {ot : Option KeyName}
    (hkind : (cv.waits = true ∧ spk = .ratchet 0 ∧ ot = some .oneTime) ∨ (cv.waits = false ∧ spk = .base false ∧ ot = none)) :
    (∀ j k, ¬ l.reads (l.setup spk ot) j k) ∧ (∀ j, ¬ l.root (l.setup spk ot) j) ∧
      ∀ i, ¬ (l.owns (.identity !b) ∨ l.owns (spkName cv spkId b i)) := by
  have hP : ¬ l.setup spk ot := by
    have := ho.setup
    rcases hkind with ⟨h, rfl, rfl⟩ | ⟨h, rfl, rfl⟩
    · rw [h] at this; exact this
    · rw [h] at this; exact this
  refine ⟨?_, fun j h => ?_, fun i h => ?_⟩
  · rintro j k (h | h | ⟨k', _, h⟩)
    · exact ho.states.2.2 _ _ h
    · obtain ⟨j', _, h⟩ := opens_from hP h
      exact ho.states.1 _ h
    · exact ho.states.2.1 _ _ h
  · obtain ⟨j', _, h⟩ := root_from hP h
    exact ho.states.1 _ h
  · rcases h with (h | ⟨k, h⟩) | (h | ⟨k, h⟩)
    · exact ho.identity h
    · cases h
    · exact ho.signed i h
    · unfold spkName at h
      split at h <;> cases h

/-- **C95, from computing to C86.** Whatever an attacker delivers who computes with what they have, and from whom the secrets are
kept, meets the assumption of C86. -/
theorem C95_attack (hC : C.Lawful) {cv : Conv} {n0 n : Net} (h0 : Start cv n0) (h : ASteps cv n0 n) {key : KeyName → Bytes}
    {top spkId : Nat} (hn : Named key top spkId cv n) {l : Leak} {b : Bool} (ho : Outside l cv spkId b) {type : Nat} {bytes : Bytes}
    (hc : Craft key top spkId cv n l b type bytes) : Attack cv n b type bytes := by
  obtain ⟨spk, ot, hs, hkind⟩ := setup_eq cv
  obtain ⟨n1, n2, n3⟩ := outside_none ho hkind
  have hcur : ∀ m, Crafted key top cv n l b m → Spec.Unforged cv n b m := by
    intro m hm
    refine ⟨fun r hj hr hv => ?_, hm.before, hm.previous⟩
    rcases C95_current hC h0 h hn hj hr (hm.computed r hj hr) hv with ⟨i, c, pt, s1, s2⟩ | ⟨M, o1, o2⟩
    · exact ⟨i, c, pt, s1, s2, hm.limits r hj hr hv i c pt s1 s2⟩
    · exfalso
      rw [hs] at o1 o2
      cases o1 with
      | chain => exact n1 _ _ ((sees_macKey _ _).1 o2)
      | next => exact n1 _ _ ((sees_macKey _ _).1 o2)
      | stray => exact n2 _ ((sees_strayMac _ _ _).1 o2)
  unfold Craft at hc
  unfold Attack
  split
  · rename_i ht
    rw [if_pos ht] at hc
    intro m hm
    have hm' := hc m hm
    refine ⟨hcur _ hm'.inner, hm'.pinned, fun htr hk s hsu hv => ?_⟩
    obtain ⟨g1, g2⟩ := hm'.setup htr hk s hsu
    rcases C95_setup hC h0 h hn (hm'.pinned htr) (parsed_shape hm).1 hk hsu g1 hv with ⟨i, p, pt, s1, s2, s3, s4, s5⟩ | ⟨M, o1, o2⟩
    · exact ⟨i, p, pt, s1, s2, s3, s4, s5, g2 hv i _ pt s1 s5⟩
    · exfalso
      cases o1 with
      | join => rw [hs] at o2; exact n1 _ _ ((sees_macKey _ _).1 o2)
      | early => rw [hs] at o2; exact n2 _ ((sees_strayMac _ _ _).1 o2)
      | other => rw [hs] at o2; exact n3 _ ((sees_otherMac _ _ _ _ _).1 o2)
  · rename_i ht
    rw [if_neg ht] at hc
    exact fun m hm => hcur m (hc m hm)

/-! ## The other direction -/

/-- Bytes that do not verify can be made up. -/
theorem computed_noise {key : KeyName → Bytes} {K offered : Term → Prop} {st : SessionState} {m : WhisperMessage}
    (h : ¬ Verifies st m) : Computed key K offered st m :=
  ⟨m.serialized, .bytes [], by simp [Term.value], .bytes _, fun hv => absurd hv h⟩

/-- Bytes that were sent can be replayed. -/
theorem computed_replay (hC : C.Lawful) {key : KeyName → Bytes} {top : Nat} {cv : Conv} {n : Net} (hn : Describes key cv.setup top cv n)
    {l : Leak} {b : Bool} {i : Nat} {c : Ciphertext} {pt : Bytes} (hi : (n.sent b)[i]? = some (c, pt)) {offered : Term → Prop}
    {st : SessionState} {m : WhisperMessage} (hm : c.inner.serialized = m.serialized)
    (hrem : st.remoteIdentityPublic = some (5 :: C.genPub (key (.identity b))))
    (hloc : st.localIdentityPublic = some (5 :: C.genPub (key (.identity !b))))
    (hl : ∀ b, (C.genPub (key (.identity b))).length = 32)
    (hoff : ∀ j k, Placed key top n b i j k → offered (.macKey cv.setup j k)) :
    Computed key (l.Sees cv.setup (Tagged key top n)) offered st m := by
  obtain ⟨j, k, hp, hmac, _⟩ := hn.sent b i c pt hi
  obtain ⟨body, mac, q1, q2, q3⟩ := verifyMac_ok hC.hmac_len hmac (by omega)
  have hkey : ∀ b, Spec.KeyOf (some (5 :: C.genPub (key (.identity b)))) (C.genPub (key (.identity b))) := fun b =>
    ⟨_, rfl, by rw [List.take_of_length_le (by rw [hl])]⟩
  refine ⟨body, .tag cv.setup b j k body, ?_, .has (.tag ?_), fun _ => ⟨_, _, C.genPub (key (.identity b)),
    C.genPub (key (.identity !b)), hoff j k hp, rfl, ?_, ?_, ?_⟩⟩
  · rw [← hm, q1, q3]
    simp [Term.tag, Term.value]
  · obtain ⟨p1, c', pt', p2, p3⟩ := hp
    rw [hi] at p2
    obtain rfl : c = c' := congrArg Prod.fst (Option.some.inj p2)
    exact ⟨i, c, pt, mac, hi, p1, p3, q1, q2⟩
  · rw [hrem]; exact hkey b
  · rw [hloc]; exact hkey !b
  · simp [Term.value]

theorem attack_craft (hC : C.Lawful) {cv : Conv} {n0 n : Net} (h0 : Start cv n0) (h : ASteps cv n0 n) {key : KeyName → Bytes}
    {ids : Bool → ECPub} {hd : PkHeader} {g : Ghost .v3} (hn : Named key g.top hd.signedPreKeyId cv n)
    (hids : ∀ b, (n.world b).identityKeyPair.pub = ids b) (hg : GInv cv ids n g) (hw : WInv cv ids hd n g)
    (hpub : ∀ j, j ≤ g.top → C.genPub (key (.ratchet j)) = (g.E j).pub) (l : Leak) {b : Bool} {type : Nat} {bytes : Bytes}
    (ha : Attack cv n b type bytes) : Craft key g.top hd.signedPreKeyId cv n l b type bytes := by
  have hl := identity_len hC h0 h hn.describes
  have hkid : ∀ b, C.genPub (key (.identity b)) = ids b := by
    intro b
    rw [← hids b, hn.describes.identity b]
  have hcur : ∀ m, WhisperMessage.parse m.serialized = .ok m → Spec.Unforged cv n b m → Crafted key g.top cv n l b m := by
    intro m hm hu
    refine ⟨fun r hj hr => ?_, fun r hj hr hv i c pt hi e => ?_, hu.before, hu.previous⟩
    · by_cases hv : Verifies r.sessionState m
      · obtain ⟨i, c, pt, u1, u2, u3, u4⟩ := hu.current r hj hr hv
        rcases hw.sides b with ⟨r', q1, q2, _⟩ | ⟨hb, q⟩
        swap
        · exact absurd q.accepted (hj q.waits hb)
        rw [hr] at q1
        obtain rfl := Option.some.inj q1
        have hcm : c.inner = m := by
          have := (hw.wire _ _ _ _ u1).inner
          rw [u2, hm] at this
          exact (Except.ok.inj this).symm
        refine computed_replay hC hn.describes u1 u2 (by rw [q2.rid, hkid]; rfl)
          (by rw [q2.lid, hkid, Bool.not_not]; rfl) hl ?_
        rintro j k ⟨p1, c', pt', p2, p3⟩
        rw [u1] at p2
        obtain rfl : c = c' := congrArg Prod.fst (Option.some.inj p2)
        have hmh : m.senderRatchetKey = C.genPub (key (.ratchet j)) ∧ m.counter = k := by
          rw [← hcm]
          exact ⟨congrArg Prod.fst p3, congrArg Prod.snd p3⟩
        obtain ⟨t, k', m1, m2, m3, m4⟩ := hg.msg (!b) i c pt u1
        rw [Bool.not_not] at m1 m2 m3 m4
        have hjt : 2 * t + off b ≤ g.top := Nat.le_trans m2 (hg.lo _)
        have hh : header c = ((g.E (2 * t + off b)).pub, k') := by unfold header; rw [m4.key, m4.counter]
        obtain rfl : 2 * t + off b = j := by
          rw [hh, hpub j p1] at p3
          exact hg.inj _ _ hjt p1 (congrArg Prod.fst p3)
        rw [hmh.1, hmh.2]
        by_cases htl : t < (g.full b).length
        · have hr' := List.getElem?_eq_getElem htl
          have hret : Spec.retained (Spec.seenKeys (cv.start b) (n.log b)) (header c).1 := by
            by_cases hacc : i ∈ n.accepted b
            · exact u4 hacc
            · refine (u3 hacc).1 ?_
              rw [hh]
              exact hg.in_seen htl
          rw [hh] at hret
          have h5 := hg.place htl hret
          refine .chain (c := Recv.chain (g.full b)[t]) ?_ ⟨p1, ?_⟩ rfl
          · rw [q2.recv]
            exact List.mem_map.2 ⟨_, mem_last5.2 ⟨t, hr', h5⟩, rfl⟩
          · rw [hpub _ p1, ← hg.ep b t _ hr']
            rfl
        · have hes := hg.e_succ b
          have hes' := hg.e_succ (!b)
          have hlo' := hg.lo (!b)
          have hhi := hg.hi b
          have hnext : 2 * t + off b = g.e b + 1 := by omega
          rw [hnext]
          refine .next q2.sender ⟨hg.lo b, ?_⟩ (by omega) rfl
          rw [hpub _ (hg.lo b)]
          rfl
      · exact computed_noise hv
    · obtain ⟨i', c', pt', u1, u2, u3, u4⟩ := hu.current r hj hr hv
      obtain rfl := hg.unique hw hi u1 (by rw [e, u2])
      rw [u1] at hi
      obtain ⟨rfl, rfl⟩ := Prod.mk.inj (Option.some.inj hi)
      exact ⟨u3, u4⟩
  unfold Attack at ha
  unfold Craft
  split
  · rename_i ht
    rw [if_pos ht] at ha
    intro m hm
    have hu := ha m hm
    refine ⟨hcur _ (parsed_shape hm).2.2 hu.inner, hu.pinned, fun htr hk s hsu => ⟨?_, ?_⟩⟩
    · by_cases hv : Verifies s m.message
      swap
      · exact computed_noise hv
      obtain ⟨i, p, pt, x1, x2, x3, x4, x5, x6⟩ := hu.setup htr hk s hsu hv
      have hik := hu.pinned htr
      rcases hw.wire _ _ _ _ x1 with ⟨m0, hm0, _⟩ | ⟨hb, hwt, m0, p0, p', hp0, hann⟩
      · cases hm0
      obtain rfl : p = p0 := Ciphertext.preKey.inj hp0
      obtain rfl : b = false := by cases b with | false => rfl | true => cases hb
      obtain ⟨_, a1, a2, a3⟩ := hn.announced i p pt x1
      have hof : OfSetup key hd.signedPreKeyId cv false m := ⟨hwt, rfl, by rw [← x2, a1], by rw [← x3, a2], by rw [← x4, a3]⟩
      have hpm : p.message = m.message := by
        have := (hw.wire _ _ _ _ x1).inner
        rw [show (Ciphertext.preKey p).inner = p.message from rfl, x5, (parsed_shape hm).2.2] at this
        exact (Except.ok.inj this).symm
      have hwait : Waiting cv ids hd n g := by
        refine hw.waiting hwt ?_
        by_contra hacc
        rcases hw.sides false with ⟨r, q1, q2, q3, q4⟩ | ⟨_, q⟩
        · refine hk ⟨r, q1, r.sessionState, List.mem_cons_self .., ?_, ?_⟩
          · rw [q2.version, (parsed_shape hm).1]; rfl
          · rw [hn.answered r hwt hacc q1, hof.2.2.1]; rfl
        · exact hacc q.accepted
      have htop : g.top ≤ 1 := by
        have h1 := hg.hi false
        have h2 := hg.e_succ false
        rw [hwait.none'] at h2
        simp only [List.length_nil, off] at h2
        omega
      obtain ⟨_, _, _, _, _, _, _, _, _, _, _, rfl⟩ := hsu
      refine computed_replay (b := true) hC hn.describes x1 x5 ?_ ?_ hl ?_
      · show some (5 :: m.identityKey) = _
        rw [hik, hids, hkid]; rfl
      · show some (5 :: (n.world false).identityKeyPair.pub) = _
        rw [hids, hkid]; rfl
      · intro j k hp
        have hodd := (hn.turns _ _ _ _ hp).2 rfl
        obtain ⟨p1, c', pt', p2, p3⟩ := hp
        obtain rfl : j = 1 := by omega
        rw [show (n.sent true)[i]? = _ from x1] at p2
        obtain rfl : Ciphertext.preKey p = c' := congrArg Prod.fst (Option.some.inj p2)
        have e1 : p.message.senderRatchetKey = _ := congrArg Prod.fst p3
        have e2 : p.message.counter = k := congrArg Prod.snd p3
        rw [hpm] at e1 e2
        rw [← e2]
        exact .join hof p1 e1
    · intro hv i c pt hi e
      obtain ⟨i', p, pt', x1, x2, x3, x4, x5, x6⟩ := hu.setup htr hk s hsu hv
      obtain rfl := hg.unique hw hi x1 (by rw [e, ← x5]; rfl)
      rw [x1] at hi
      obtain ⟨rfl, rfl⟩ := Prod.mk.inj (Option.some.inj hi)
      exact x6
  · rename_i ht
    rw [if_neg ht] at ha
    intro m hm
    exact hcur m (by rw [parse_serialized hm]; exact hm) (ha m hm)

/-- An attacker of C86 needs nothing that has leaked. -/
theorem attack_outside (hC : C.Lawful) {cv : Conv} {n0 n : Net} (h0 : Start cv n0) (h : ASteps cv n0 n) {b : Bool} {type : Nat}
    {bytes : Bytes} (ha : Attack cv n b type bytes) :
    ∃ (key : KeyName → Bytes) (top spkId : Nat) (l : Leak), Named key top spkId cv n ∧ Outside l cv spkId b ∧
      Craft key top spkId cv n l b type bytes := by
  obtain ⟨key, ids, hd, g, _, k2, k3, k4, k5, k6⟩ := names_ghost hC h0 h
  let l : Leak := ⟨fun _ => False, fun _ => False, fun _ _ => False, fun _ _ => False, fun _ _ => False⟩
  have hno : ∀ x, (∀ k, x ≠ .adversary k) → ¬ l.owns x := by
    rintro x hx (h | ⟨k, h⟩)
    · exact h
    · exact hx k h
  refine ⟨key, g.top, hd.signedPreKeyId, l, k2, ⟨⟨fun _ h => h, fun _ _ h => h, fun _ _ h => h⟩, ?_, fun h => h, fun _ h => h⟩,
    attack_craft hC h0 h k2 k3 k4 k5 k6 l ha⟩
  split
  · rintro ⟨a, _⟩
    exact a.elim (hno _ (fun k => by simp)) (hno _ (fun k => by simp))
  · rintro ⟨a, _⟩
    exact a.elim (hno _ (fun k => by simp)) (hno _ (fun k => by simp))

/-- **C95, the attackers are the same.** The conversations with an attacker of C86 are exactly the conversations with an attacker who
computes: each of their messages is computed from the messages sent so far and from leaked keys that leave the secrets safe. -/
theorem C95_steps (hC : C.Lawful) {cv : Conv} {n0 n : Net} (h0 : Start cv n0) : CSteps cv n0 n ↔ ASteps cv n0 n := by
  constructor
  · intro h
    induction h with
    | refl => exact .refl
    | step _ hs ih =>
      cases hs with
      | honest hs => exact ih.step (.honest hs)
      | craft h1 h2 h3 h4 h5 h6 h7 h8 => exact ih.step (.attack (C95_attack hC h0 ih h1 h2 h3) h4 h5 h6 h7 h8)
  · intro h
    induction h with
    | refl => exact .refl
    | @step m m' hm hs ih =>
      cases hs with
      | honest hs => exact ih.step (.honest hs)
      | attack h1 h2 h3 h4 h5 h6 =>
        obtain ⟨key, top, spkId, l, k1, k2, k3⟩ := attack_outside hC h0 hm h1
        exact ih.step (.craft k1 k2 k3 h2 h3 h4 h5 h6)

/-- **C95, what is accepted.** From an attacker who computes, side `b` accepts only messages of the peer, each at most once. -/
theorem C95_only_sent (hC : C.Lawful) {cv : Conv} {n0 n : Net} (h0 : Start cv n0) (h : CSteps cv n0 n) {key : KeyName → Bytes}
    {top spkId : Nat} (hn : Named key top spkId cv n) {l : Leak} {b : Bool} (ho : Outside l cv spkId b) {type : Nat}
    {bytes seed : Bytes} {seeds : Nat → Bytes} (hc : Craft key top spkId cv n l b type bytes) (hs1 : seed.length = 32)
    (hs2 : (seeds 0).length = 32) (hf1 : C.genPub (C.genPriv seed) ∉ n.keys) (hf2 : C.genPub (C.genPriv (seeds 0)) ∉ n.keys) {pt : Bytes}
    (hok : (Spec.receive (n.world b) (cv.addr b) type bytes seed seeds).result = .ok pt) :
    ∃ (i : Nat) (c : Ciphertext), (n.sent (!b))[i]? = some (c, pt) ∧ i ∉ n.accepted b ∧
      Spec.InnerBytes type bytes c.inner.serialized :=
  have h' := (C95_steps hC h0).1 h
  C86_only_sent hC h0 h' (C95_attack hC h0 h' hn ho hc) hs1 hs2 hf1 hf2 hok

/-- **C95, messages get through.** And however they interfere, messages are delivered as without them. -/
theorem C95_conversation (hC : C.Lawful) {cv : Conv} {n0 n : Net} (h0 : Start cv n0) (h : CSteps cv n0 n)
    {b : Bool} {i : Nat} {c : Ciphertext} {pt : Bytes} (hi : (n.sent (!b))[i]? = some (c, pt))
    {seed : Bytes} (hseed : seed.length = 32) (hfresh : C.genPub (C.genPriv seed) ∉ n.keys) (seeds : Nat → Bytes) :
    let o := Spec.receive (n.world b) (cv.addr b) c.getType c.serialize seed seeds
    (i ∉ n.accepted b → n.inLimits cv b (header c) → o.result = .ok pt) ∧
    (i ∈ n.accepted b → n.remembered cv b (header c) →
      o.result = .error .duplicateMessage ∧ (o.final (n.world b)).sessions = (n.world b).sessions ∧
      (o.final (n.world b)).preKeys = (n.world b).preKeys) :=
  C86_conversation hC h0 ((C95_steps hC h0).1 h) hi hseed hfresh seeds

end

/-! ## Non-vacuity: the run of C86 -/

section
attribute [local instance] toy
open Example
open Spec (Net Conv Start ASteps CSteps Named Leak Outside)

/-- The run of C86, with tampered, rewrapped and replayed messages, is one with an attacker who computes. -/
example : ∃ n, Start convCv act0 ∧ CSteps convCv act0 n ∧ n.accepted false = [1, 0] ∧ n.accepted true = [0] ∧
    ∃ key top spkId, Named key top spkId convCv n := by
  obtain ⟨n, hn, hc⟩ := (Option.any_eq_true _ _).1 actRun_check
  unfold actCheck at hc
  simp only [Bool.and_eq_true, beq_iff_eq] at hc
  obtain ⟨key, top, spkId, _, h⟩ := C95_names toy_lawful act_start (actRun_steps hn)
  exact ⟨n, act_start, (C95_steps toy_lawful act_start).2 (actRun_steps hn), hc.1.1.1, hc.1.1.2, key, top, spkId, h⟩

/-- Someone who has all ratchet keys but the first, and the initiator's identity key, is outside for the initiator. -/
example : Outside ⟨fun x => x = .identity true ∨ ∃ j, x = .ratchet (j + 1), fun _ => False, fun _ _ => False, fun _ _ => False, fun _ _ => True⟩
    convCv 22 true := by
  refine ⟨⟨fun _ h => h, fun _ _ h => h, fun _ _ h => h⟩, ?_, ?_, ?_⟩
  · rw [if_pos (show convCv.waits = true from rfl)]
    rintro ⟨_, ((h | ⟨_, h⟩) | ⟨_, h⟩) | ((h | ⟨_, h⟩) | ⟨_, h⟩), _⟩ <;> cases h
  · rintro (h | ⟨_, h⟩) <;> cases h
  · intro i
    rintro (h | ⟨_, h⟩) <;> cases h

end
end Axolotl
