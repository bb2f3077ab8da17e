import Verif.Proofs.Secrecy
import Verif.Proofs.System

/-! # C89: who can read what after keys have leaked -/

namespace Axolotl
section
variable [C : Crypto]
open Spec (GoodPair Net Conv Step Steps Start header Term KeyName Leak Derives seenKeys retained Placed Describes Begins theft)

/-- Names for the keys. -/
def namesOf (g : Ghost .v3) (kp : Bool → KeyPair) (kb ks ko : ECPriv) : KeyName → Bytes
  | .identity b => (kp b).priv
  | .base true => kb
  | .base false => ks
  | .oneTime => ko
  | .ratchet j => (g.E j).priv
  | .signed _ _ => []
  | .adversary _ => []

/-- A conversation that has just begun. -/
theorem chart (hC : C.Lawful) {cv : Conv} {n : Net} (h : Start cv n) :
    ∃ ids kb ks ko, ∃ kp : Bool → KeyPair, ∃ (hd : PkHeader) (g : Ghost .v3), (∀ b, (kp b).pub = ids b) ∧ (∀ b, (n.world b).identityKeyPair = kp b) ∧
      ConvFrom hd n.keys g ids cv n ∧ SetupKeys cv n (g.E 0) kb ks ko := by
  obtain ⟨ids, kb, ks, ko, h1, hd, g, h2, h3⟩ := start_full hC h
  exact ⟨ids, kb, ks, ko, fun b => (n.world b).identityKeyPair, hd, g, h1, fun _ => rfl,
    ⟨⟨g, h2.1, h2.2, .refl _ _⟩, fun _ h => h⟩, h3⟩

theorem named (hC : C.Lawful) {cv : Conv} {n0 n : Net} {ids : Bool → ECPub} {kp : Bool → KeyPair} {g0 g g' : Ghost .v3} {kb ks ko : ECPriv}
    {hd : PkHeader} {keys keys' : List ECPub} (hkp : ∀ b, (kp b).pub = ids b) (h0 : ∀ b, (n0.world b).identityKeyPair = kp b)
    (hset : SetupKeys cv n0 (g0.E 0) kb ks ko) (hid : ∀ b, (n.world b).identityKeyPair = kp b) (hg : GInv cv ids n g)
    (hw : WInv cv ids hd n g) (he : g0.Extends keys g) (he' : g.Extends keys' g') :
    Describes (namesOf g' kp kb ks ko) cv.setup g.top cv n := by
  have hr : ∀ j, j ≤ g.top → namesOf g' kp kb ks ko (.ratchet j) = (g.E j).priv := by
    intro j hj
    show (g'.E j).priv = _
    rw [he'.same j hj]
  rw [← he.same 0 (Nat.zero_le _)] at hset
  refine describe hC hg hw hr (fun b => ?_) (fun b => by rw [hid, hkp]) ?_
  · have := (hset.identity b).pub
    rw [h0 b] at this
    rw [hid b]
    show kp b = ⟨C.genPub (kp b).priv, (kp b).priv⟩
    rw [← this]
  · exact value_epoch hC hset hg.good hg.next hr (fun b => by rw [h0]; rfl) rfl (fun _ => rfl) rfl

theorem names_pub {cv : Conv} {n : Net} {ids : Bool → ECPub} {kp : Bool → KeyPair} {g g' : Ghost .v3} {kb ks ko : ECPriv}
    {keys' : List ECPub} (hg : GInv cv ids n g) (he' : g.Extends keys' g') (j : Nat) (hj : j ≤ g.top) :
    C.genPub (namesOf g' kp kb ks ko (.ratchet j)) = (g.E j).pub := by
  show C.genPub (g'.E j).priv = _
  rw [he'.same j hj, (hg.good j hj).pub]

/-- What carries a conversation on, with the names of its keys. -/
def Along (cv : Conv) (n m : Net) : Prop :=
  ∀ {hd : PkHeader} {keys0 : List ECPub} {g0 : Ghost .v3} {ids : Bool → ECPub} {kp : Bool → KeyPair}, (∀ b, (kp b).pub = ids b) →
    ConvFrom hd keys0 g0 ids cv n → (∀ b, (n.world b).identityKeyPair = kp b) →
    ConvFrom hd keys0 g0 ids cv m ∧ ∀ b, (m.world b).identityKeyPair = kp b

theorem steps_along (hC : C.Lawful) {cv : Conv} {n m : Net} (h : Steps cv n m) : Along cv n m :=
  fun hkp hc hid => steps_from hC hkp hc hid h

omit C in
/-- **C89**, in general: from any leak the attacker gets exactly these plaintexts, MAC keys, root keys, chain keys and private
keys, whatever they compute. -/
theorem C89_exact (l : Leak) (spk : KeyName) (oneTime : Option KeyName) (place : Bool → Nat → Nat → Nat → Prop) :
    let s := Term.setup spk oneTime
    let P := l.setup spk oneTime
    (∀ b i, Derives (l.Has s place) (.text b i) ↔ l.texts b i ∨ ∃ j k, place b i j k ∧ l.reads P j k) ∧
    (∀ j k, Derives (l.Has s place) (Term.macKey s j k) ↔ l.reads P j k) ∧
    (∀ j, Derives (l.Has s place) (Term.root s j) ↔ l.root P j) ∧
    (∀ j k, Derives (l.Has s place) (Term.chain s j k) ↔ l.opens P j ∨ ∃ k' ≤ k, l.chains j k') ∧
    (∀ x, Derives (l.Has s place) (.priv x) ↔ l.owns x) :=
  ⟨derives_text, derives_macKey, derives_root, derives_chainKey, derives_priv⟩

omit C in
theorem setup_eq (cv : Conv) : ∃ spk ot, cv.setup = Term.setup spk ot ∧
    ((cv.waits = true ∧ spk = .ratchet 0 ∧ ot = some .oneTime) ∨ (cv.waits = false ∧ spk = .base false ∧ ot = none)) := by
  cases h : cv.waits with
  | true => exact ⟨_, _, by unfold Conv.setup; rw [h]; rfl, Or.inl ⟨rfl, rfl, rfl⟩⟩
  | false => exact ⟨_, _, by unfold Conv.setup; rw [h]; rfl, Or.inr ⟨rfl, rfl, rfl⟩⟩

/-- What can be read of what has been sent, by a thief. -/
theorem forward_core {cv : Conv} {n : Net} {ids : Bool → ECPub} {hd : PkHeader} {g : Ghost .v3} {key : KeyName → Bytes}
    (hg : GInv cv ids n g) (hw : WInv cv ids hd n g) (hpub : ∀ j, j ≤ g.top → C.genPub (key (.ratchet j)) = (g.E j).pub) :
    ∀ (S : Bool → Prop) (extra : KeyName → Prop) (texts : Bool → Nat → Prop),
      (∀ b, S b → cv.waits = true → b = false → n.accepted false ≠ []) → (∀ b, ¬ extra (.base b)) → ¬ extra .oneTime →
      ∀ (b : Bool) (i : Nat) (c : Ciphertext) (pt : Bytes), (n.sent (!b))[i]? = some (c, pt) → ¬ texts (!b) i →
        (Derives ((theft key g.top cv n S extra texts).Has cv.setup (Placed key g.top n)) (.text (!b) i) ↔
          S b ∧ i ∉ n.accepted b ∧
            ((header c).1 ∈ seenKeys (cv.start b) (n.log b) → retained (seenKeys (cv.start b) (n.log b)) (header c).1)) := by
  intro S extra texts hS hbase hone b i c pt hi ht
  have hsp := spilt (S := S) (extra := extra) (texts := texts) hg hw hpub hS
  obtain ⟨spk, ot, hs, hkind⟩ := setup_eq cv
  obtain ⟨t, k, m1, m2, m3, m4⟩ := hg.msg (!b) i c pt hi
  rw [Bool.not_not] at m1 m2 m3 m4
  have hj : 2 * t + off b ≤ g.top := Nat.le_trans m2 (hg.lo _)
  have hh : header c = ((g.E (2 * t + off b)).pub, k) := by unfold header; rw [m4.key, m4.counter]
  have hP : ¬ (theft key g.top cv n S extra texts).setup spk ot := by
    have hno : ∀ x, (∀ j, x ≠ .ratchet j) → (∀ k, x ≠ .adversary k) → ¬ extra x →
        ¬ (theft key g.top cv n S extra texts).owns x := by
      intro x h1 h2 h3 h4
      rcases h4 with h4 | ⟨k, h4⟩
      · rcases (hsp.keys x).1 h4 with h4 | ⟨b', _, h4⟩
        · exact h3 h4
        · exact h1 _ h4
      · exact h2 k h4
    have hb := fun b => hno (.base b) (fun j => by simp) (fun k => by simp) (hbase b)
    have ho := hno .oneTime (fun j => by simp) (fun k => by simp) hone
    rintro ⟨_, _, p3, p4⟩
    rcases hkind with ⟨_, rfl, rfl⟩ | ⟨_, rfl, rfl⟩
    · exact (p4 _ rfl).elim (hb true) ho
    · exact p3.elim (hb true) (hb false)
  rw [hs, derives_text, ← spilt_reads hg hsp hP hi m2 m3 hh]
  constructor
  · rintro (h | ⟨j, k', ⟨p1, c', pt', p2, p3⟩, p4⟩)
    · exact absurd h ht
    · rw [hi] at p2
      obtain rfl : c = c' := congrArg Prod.fst (Option.some.inj p2)
      rw [hh, hpub j p1] at p3
      injection p3 with p3 p5
      obtain rfl := hg.inj _ _ hj p1 p3
      rw [p5]
      exact p4
  · intro hread
    exact Or.inr ⟨_, k, ⟨hj, c, pt, hi, by rw [hh, hpub _ hj]⟩, hread⟩

theorem along_forward (hC : C.Lawful) {cv : Conv} {n0 n : Net} (h0 : Start cv n0) (h : Along cv n0 n) :
    ∃ (key : KeyName → Bytes) (top : Nat), Begins key cv n0 ∧ Describes key cv.setup top cv n ∧
      ∀ (S : Bool → Prop) (extra : KeyName → Prop) (texts : Bool → Nat → Prop),
        (∀ b, S b → cv.waits = true → b = false → n.accepted false ≠ []) → (∀ b, ¬ extra (.base b)) → ¬ extra .oneTime →
        ∀ (b : Bool) (i : Nat) (c : Ciphertext) (pt : Bytes), (n.sent (!b))[i]? = some (c, pt) → ¬ texts (!b) i →
          (Derives ((theft key top cv n S extra texts).Has cv.setup (Placed key top n)) (.text (!b) i) ↔
            S b ∧ i ∉ n.accepted b ∧
              ((header c).1 ∈ seenKeys (cv.start b) (n.log b) → retained (seenKeys (cv.start b) (n.log b)) (header c).1)) := by
  obtain ⟨ids, kb, ks, ko, kp, hd, g0, hkp, hid0, hc0, hset⟩ := chart hC h0
  obtain ⟨⟨⟨g, hg, hw, hext⟩, _⟩, hid⟩ := h hkp hc0 hid0
  have hpub := names_pub (kp := kp) (kb := kb) (ks := ks) (ko := ko) hg (Ghost.Extends.refl n.keys g)
  refine ⟨namesOf g kp kb ks ko, g.top, hset.begins, named hC hkp hid0 hset hid hg hw hext (.refl n.keys g), ?_⟩
  exact forward_core hg hw hpub

/-- **C89**, forward secrecy.  At any moment of a conversation the keys have names such that the session states, the messages
and their keys are what the terms say.  Suppose an attacker has recorded all messages, then reads the current session states
of the sides in `S`, and gets any private keys (identity keys, the signed prekey, all ratchet keys ever used) except the base
keys and the one-time prekey, and any other plaintexts.  They can read a message exactly if its recipient is in `S`, has not
accepted it, and could still decrypt it.  So accepted messages stay secret, and so do all messages that a side has sent unless
the other side's state is stolen. -/
theorem C89_forward (hC : C.Lawful) {cv : Conv} {n0 n : Net} (h0 : Start cv n0) (h : Steps cv n0 n) :
    ∃ (key : KeyName → Bytes) (top : Nat), Begins key cv n0 ∧ Describes key cv.setup top cv n ∧
      ∀ (S : Bool → Prop) (extra : KeyName → Prop) (texts : Bool → Nat → Prop),
        (∀ b, S b → cv.waits = true → b = false → n.accepted false ≠ []) → (∀ b, ¬ extra (.base b)) → ¬ extra .oneTime →
        ∀ (b : Bool) (i : Nat) (c : Ciphertext) (pt : Bytes), (n.sent (!b))[i]? = some (c, pt) → ¬ texts (!b) i →
          (Derives ((theft key top cv n S extra texts).Has cv.setup (Placed key top n)) (.text (!b) i) ↔
            S b ∧ i ∉ n.accepted b ∧
              ((header c).1 ∈ seenKeys (cv.start b) (n.log b) → retained (seenKeys (cv.start b) (n.log b)) (header c).1)) :=
  along_forward hC h0 (steps_along hC h)

/-- What leaked at `n1` does not open the epochs after the next one. -/
theorem heal_core {cv : Conv} {n1 n2 : Net} {ids : Bool → ECPub} {kp : Bool → KeyPair} {g1 g2 : Ghost .v3} {kb ks ko : ECPriv}
    (hg2 : GInv cv ids n2 g2) {S : Bool → Prop} {extra : KeyName → Prop} {texts : Bool → Nat → Prop}
    (hex : ∀ j, extra (.ratchet j) → j ≤ g1.top) {b : Bool} {i j k : Nat}
    (hpl : Placed (namesOf g2 kp kb ks ko) g2.top n2 b i j k) (hj : g1.top + 2 ≤ j) (ht : ¬ texts b i) :
    ¬ Derives ((theft (namesOf g2 kp kb ks ko) g1.top cv n1 S extra texts).Has cv.setup (Placed (namesOf g2 kp kb ks ko) g2.top n2))
      (.text b i) := by
  have hpub := names_pub (kp := kp) (kb := kb) (ks := ks) (ko := ko) hg2 (Ghost.Extends.refl n2.keys g2)
  obtain ⟨spk, ot, hs, _⟩ := setup_eq cv
  rw [hs, derives_text]
  rintro (h | ⟨j', k', hpl', hread⟩)
  · exact ht h
  · obtain ⟨p1, c, pt, p2, p3⟩ := hpl
    obtain ⟨q1, c', pt', q2, q3⟩ := hpl'
    rw [p2] at q2
    obtain rfl : c = c' := congrArg Prod.fst (Option.some.inj q2)
    rw [p3, hpub j p1, hpub j' q1] at q3
    injection q3 with q3 _
    obtain rfl := hg2.inj _ _ p1 q1 q3
    have hkeys : ∀ x, (theft (namesOf g2 kp kb ks ko) g1.top cv n1 S extra texts).keys (.ratchet x) → x ≤ g1.top := by
      rintro x (h | ⟨b', r, c', y, _, _, _, hl, e⟩)
      · exact hex x h
      · injection e with e; subst e; exact hl.1
    rcases hread with ⟨b', r, c', _, _, _, hl, _⟩ | h | ⟨x, _, b', r, c', _, _, _, hl, _⟩
    · have := hl.1; omega
    · have := opens_bound hkeys h; omega
    · have := hl.1; omega

theorem along_healing (hC : C.Lawful) {cv : Conv} {n0 n1 n2 : Net} (h0 : Start cv n0) (h1 : Along cv n0 n1) (h2 : Along cv n1 n2) :
    ∃ (key : KeyName → Bytes) (top1 top2 : Nat), Begins key cv n0 ∧ Describes key cv.setup top1 cv n1 ∧
      Describes key cv.setup top2 cv n2 ∧ top1 ≤ top2 ∧
      (∀ j, top1 < j → j ≤ top2 → C.genPub (key (.ratchet j)) ∉ n1.keys) ∧
      ∀ (S : Bool → Prop) (extra : KeyName → Prop) (texts : Bool → Nat → Prop), (∀ j, extra (.ratchet j) → j ≤ top1) →
        ∀ (b : Bool) (i j k : Nat), Placed key top2 n2 b i j k → top1 + 2 ≤ j → ¬ texts b i →
          ¬ Derives ((theft key top1 cv n1 S extra texts).Has cv.setup (Placed key top2 n2)) (.text b i) := by
  obtain ⟨ids, kb, ks, ko, kp, hd, g0, hkp, hid0, hc0, hset⟩ := chart hC h0
  obtain ⟨⟨⟨g1, hg1, hw1, hext1⟩, hk1⟩, hid1⟩ := h1 hkp hc0 hid0
  have hc1 : ConvFrom hd n1.keys g1 ids cv n1 := ⟨⟨g1, hg1, hw1, .refl _ _⟩, fun _ h => h⟩
  obtain ⟨⟨⟨g2, hg2, hw2, hext2⟩, _⟩, hid2⟩ := h2 hkp hc1 hid1
  refine ⟨namesOf g2 kp kb ks ko, g1.top, g2.top, hset.begins, named hC hkp hid0 hset hid1 hg1 hw1 hext1 hext2,
    named hC hkp hid0 hset hid2 hg2 hw2 (hext1.trans hext2 hk1) (.refl n2.keys g2), hext2.top, ?_, ?_⟩
  · intro j hj hj'
    rw [names_pub hg2 (.refl n2.keys g2) j hj']
    exact hext2.fresh j hj hj'
  · intro S extra texts hex b i j k hpl hj ht
    exact heal_core hg2 hex hpl hj ht

/-- **C89**, healing.  Suppose that at the moment `n1` the states of any sides leak, with every private key there is, even
those of the setup, and whatever plaintexts.  Ratchet keys generated later do not leak.  Then all messages in epochs after the
next one are secret, at any later moment `n2`, for an attacker who only listens. -/
theorem C89_healing (hC : C.Lawful) {cv : Conv} {n0 n1 n2 : Net} (h0 : Start cv n0) (h1 : Steps cv n0 n1) (h2 : Steps cv n1 n2) :
    ∃ (key : KeyName → Bytes) (top1 top2 : Nat), Begins key cv n0 ∧ Describes key cv.setup top1 cv n1 ∧
      Describes key cv.setup top2 cv n2 ∧ top1 ≤ top2 ∧
      (∀ j, top1 < j → j ≤ top2 → C.genPub (key (.ratchet j)) ∉ n1.keys) ∧
      ∀ (S : Bool → Prop) (extra : KeyName → Prop) (texts : Bool → Nat → Prop), (∀ j, extra (.ratchet j) → j ≤ top1) →
        ∀ (b : Bool) (i j k : Nat), Placed key top2 n2 b i j k → top1 + 2 ≤ j → ¬ texts b i →
          ¬ Derives ((theft key top1 cv n1 S extra texts).Has cv.setup (Placed key top2 n2)) (.text b i) :=
  along_healing hC h0 (steps_along hC h1) (steps_along hC h2)

theorem along_healed (hC : C.Lawful) {cv : Conv} {n0 n1 n2 : Net} (h0 : Start cv n0) (h1 : Along cv n0 n1) (h2 : Along cv n1 n2)
    {b : Bool} {x : ECPub} (hx : x ∈ seenKeys (cv.start b) (n2.log b)) (hnew : x ∉ n1.keys) {pt : Bytes} {c : Ciphertext}
    (hok : cv.waits = true → b = false → n2.accepted false ≠ []) (hpt : pt.length < 2 ^ 62)
    (hc : (SessionCipher.encrypt (n2.world b) (cv.addr b) pt).result = .ok c) :
    let n3 : Net := { n2 with
      world := upd n2.world b ((SessionCipher.encrypt (n2.world b) (cv.addr b) pt).final (n2.world b)),
      sent := upd n2.sent b (n2.sent b ++ [(c, pt)]) }
    ∃ (key : KeyName → Bytes) (top1 top3 : Nat), Begins key cv n0 ∧ Describes key cv.setup top1 cv n1 ∧
      Describes key cv.setup top3 cv n3 ∧
      ∀ (S : Bool → Prop) (extra : KeyName → Prop) (texts : Bool → Nat → Prop), (∀ j, extra (.ratchet j) → j ≤ top1) →
        ¬ texts b (n2.sent b).length →
        ¬ Derives ((theft key top1 cv n1 S extra texts).Has cv.setup (Placed key top3 n3)) (.text b (n2.sent b).length) := by
  intro n3
  obtain ⟨ids, kb, ks, ko, kp, hd, g0, hkp, hid0, hc0, hset⟩ := chart hC h0
  obtain ⟨⟨⟨g1, hg1, hw1, hext1⟩, hk1⟩, hid1⟩ := h1 hkp hc0 hid0
  have hc1 : ConvFrom hd n1.keys g1 ids cv n1 := ⟨⟨g1, hg1, hw1, .refl _ _⟩, fun _ h => h⟩
  obtain ⟨⟨⟨g2, hg2, hw2, hext2⟩, hk2⟩, hid2⟩ := h2 hkp hc1 hid1
  have hc2 : ConvFrom hd n2.keys g2 ids cv n2 := ⟨⟨g2, hg2, hw2, .refl _ _⟩, fun _ h => h⟩
  obtain ⟨⟨⟨g3, hg3, hw3, hext3⟩, hk3⟩, hid3⟩ :=
    steps_along (m := n3) hC (Steps.refl.step (Step.send hok hpt hc)) hkp hc2 hid2
  have hext13 := hext2.trans hext3 hk2
  refine ⟨namesOf g3 kp kb ks ko, g1.top, g3.top, hset.begins, named hC hkp hid0 hset hid1 hg1 hw1 hext1 hext13,
    named hC hkp hid0 hset hid3 hg3 hw3 (hext1.trans hext13 hk1) (.refl n3.keys g3), ?_⟩
  intro S extra texts hex ht
  have hsent : (n3.sent b)[(n2.sent b).length]? = some (c, pt) := by
    show (upd n2.sent b (n2.sent b ++ [(c, pt)]) b)[_]? = _
    rw [upd_same]; simp
  have ho : Open cv ids hd g2 b (n2.world b) := by
    rcases hw2.sides b with ho | ⟨hb, hwt⟩
    · exact ho
    · exact absurd hwt.accepted (hok hwt.waits hb)
  obtain ⟨c', r', e1, e2, e3, _⟩ := ho.encrypt hg2 hw2.v3 hw2.hdr hC (ho.limit hc) hpt
  rw [e1] at hc
  obtain rfl : c' = c := Except.ok.inj hc
  have hlo := hg2.lo b
  have hpl : Placed (namesOf g3 kp kb ks ko) g3.top n3 b (n2.sent b).length (g2.e b) (g2.n b) := by
    refine ⟨Nat.le_trans hlo hext3.top, c', pt, hsent, ?_⟩
    unfold header
    rw [e3.key, e3.counter, names_pub hg3 (.refl n3.keys g3) _ (Nat.le_trans hlo hext3.top), hext3.same _ hlo]
  refine heal_core hg3 hex hpl ?_ ht
  rw [hg2.seen b, List.mem_map] at hx
  obtain ⟨r, hr, rfl⟩ := hx
  obtain ⟨t, ht', rfl⟩ := List.mem_iff_getElem.1 hr
  have hep := hg2.ep b t _ (List.getElem?_eq_getElem ht')
  rw [hep] at hnew
  have hes := hg2.e_succ b
  by_cases hle : 2 * t + off b ≤ g1.top
  · rw [hext2.same _ hle] at hnew
    exact absurd (hg1.keys _ hle) hnew
  · omega

/-- **C89**, healing, seen from a side: a side that has accepted a message under a ratchet key generated after the theft sends
only messages that the thief cannot read. -/
theorem C89_healed (hC : C.Lawful) {cv : Conv} {n0 n1 n2 : Net} (h0 : Start cv n0) (h1 : Steps cv n0 n1) (h2 : Steps cv n1 n2)
    {b : Bool} {x : ECPub} (hx : x ∈ seenKeys (cv.start b) (n2.log b)) (hnew : x ∉ n1.keys) {pt : Bytes} {c : Ciphertext}
    (hok : cv.waits = true → b = false → n2.accepted false ≠ []) (hpt : pt.length < 2 ^ 62)
    (hc : (SessionCipher.encrypt (n2.world b) (cv.addr b) pt).result = .ok c) :
    let n3 : Net := { n2 with
      world := upd n2.world b ((SessionCipher.encrypt (n2.world b) (cv.addr b) pt).final (n2.world b)),
      sent := upd n2.sent b (n2.sent b ++ [(c, pt)]) }
    ∃ (key : KeyName → Bytes) (top1 top3 : Nat), Begins key cv n0 ∧ Describes key cv.setup top1 cv n1 ∧
      Describes key cv.setup top3 cv n3 ∧
      ∀ (S : Bool → Prop) (extra : KeyName → Prop) (texts : Bool → Nat → Prop), (∀ j, extra (.ratchet j) → j ≤ top1) →
        ¬ texts b (n2.sent b).length →
        ¬ Derives ((theft key top1 cv n1 S extra texts).Has cv.setup (Placed key top3 n3)) (.text b (n2.sent b).length) :=
  along_healed hC h0 (steps_along hC h1) (steps_along hC h2) hx hnew hok hpt hc

theorem start_top {cv : Conv} {n : Net} {ids : Bool → ECPub} {g : Ghost .v3} (h : Start cv n) (hg : GInv cv ids n g) : g.top ≤ 1 := by
  have hs := hg.seen false
  have hn : seenKeys (cv.start false) (n.log false) = [] := by
    cases h with
    | bundle => rfl
    | exchange => rfl
  rw [hn] at hs
  have h1 := hg.hi false
  have h2 := hg.e_succ false
  rw [List.map_eq_nil_iff.1 hs.symm] at h2
  simp only [List.length_nil, off] at h2
  omega

theorem along_setup (hC : C.Lawful) {cv : Conv} {n0 n : Net} (h0 : Start cv n0) (h : Along cv n0 n) :
    ∃ (key : KeyName → Bytes) (top : Nat), Begins key cv n0 ∧ Describes key cv.setup top cv n ∧
      ∀ (S : Bool → Prop) (extra : KeyName → Prop) (texts : Bool → Nat → Prop),
        (extra (.identity true) ∧ extra (.base true) ∨
          extra (.identity false) ∧ (if cv.waits then extra .oneTime else extra (.base false))) → extra (.ratchet 0) →
        ∀ (b : Bool) (i : Nat) (c : Ciphertext) (pt : Bytes), (n.sent b)[i]? = some (c, pt) → (header c).1 ∈ n0.keys →
          Derives ((theft key top cv n S extra texts).Has cv.setup (Placed key top n)) (.text b i) := by
  obtain ⟨ids, kb, ks, ko, kp, hd, g0, hkp, hid0, hc0, hset⟩ := chart hC h0
  obtain ⟨⟨⟨g, hg, hw, hext⟩, _⟩, hid⟩ := h hkp hc0 hid0
  have hpub := names_pub (kp := kp) (kb := kb) (ks := ks) (ko := ko) hg (Ghost.Extends.refl n.keys g)
  refine ⟨namesOf g kp kb ks ko, g.top, hset.begins, named hC hkp hid0 hset hid hg hw hext (.refl n.keys g), ?_⟩
  intro S extra texts hex hr b i c pt hi hk
  obtain ⟨spk, ot, hs, hkind⟩ := setup_eq cv
  obtain ⟨t, k, m1, m2, m3, m4⟩ := hg.msg b i c pt hi
  have hj : 2 * t + off (!b) ≤ g.top := Nat.le_trans m2 (hg.lo _)
  generalize 2 * t + off (!b) = j at hj m4
  have hh : header c = ((g.E j).pub, k) := by unfold header; rw [m4.key, m4.counter]
  have htop : g0.top ≤ 1 := by
    obtain ⟨⟨g1, hg1, _, he⟩, _⟩ := hc0
    exact Nat.le_trans he.top (start_top h0 hg1)
  have hj1 : j ≤ 1 := by
    by_contra hlt
    rw [hh] at hk
    exact hext.fresh j (by omega) hj hk
  rw [hs, derives_text]
  refine Or.inr ⟨j, k, ⟨hj, c, pt, hi, by rw [hh, hpub _ hj]⟩, Or.inr (Or.inl ?_)⟩
  have hown : ∀ x, extra x → (theft (namesOf g kp kb ks ko) g.top cv n S extra texts).owns x := fun x hx => Or.inl (Or.inl hx)
  have hP : (theft (namesOf g kp kb ks ko) g.top cv n S extra texts).setup spk ot := by
    rcases hex with ⟨e1, e2⟩ | ⟨e1, e2⟩
    · exact ⟨Or.inl (hown _ e1), Or.inl (hown _ e2), Or.inl (hown _ e2), fun _ _ => Or.inl (hown _ e2)⟩
    · rcases hkind with ⟨hwt, rfl, rfl⟩ | ⟨hwt, rfl, rfl⟩
      · rw [hwt, if_pos rfl] at e2
        refine ⟨Or.inr (hown _ hr), Or.inr (hown _ e1), Or.inr (hown _ hr), fun k hk => Or.inr ?_⟩
        rw [← Option.some.inj hk]; exact hown _ e2
      · rw [hwt, if_neg (by simp)] at e2
        exact ⟨Or.inr (hown _ e2), Or.inr (hown _ e1), Or.inr (hown _ e2), fun k hk => by cases hk⟩
  match j, hj1 with
  | 0, _ => exact hP
  | 1, _ => exact ⟨Or.inr hP, Or.inl (hown _ hr)⟩

/-- **C89**, the limit: the setup keys of one side, with the first ratchet key (the signed prekey, when a bundle was used), open
all messages under the ratchet keys of the beginning, also those accepted long ago.  Side `true` does not keep its base key after it
has processed a bundle, and side `false` removes the one-time prekey (`C89_prekey_gone`).  But after a key exchange the side
that asked keeps its base key in an archived state (`C80_exchange_kept`). -/
theorem C89_setup (hC : C.Lawful) {cv : Conv} {n0 n : Net} (h0 : Start cv n0) (h : Steps cv n0 n) :
    ∃ (key : KeyName → Bytes) (top : Nat), Begins key cv n0 ∧ Describes key cv.setup top cv n ∧
      ∀ (S : Bool → Prop) (extra : KeyName → Prop) (texts : Bool → Nat → Prop),
        (extra (.identity true) ∧ extra (.base true) ∨
          extra (.identity false) ∧ (if cv.waits then extra .oneTime else extra (.base false))) → extra (.ratchet 0) →
        ∀ (b : Bool) (i : Nat) (c : Ciphertext) (pt : Bytes), (n.sent b)[i]? = some (c, pt) → (header c).1 ∈ n0.keys →
          Derives ((theft key top cv n S extra texts).Has cv.setup (Placed key top n)) (.text b i) :=
  along_setup hC h0 (steps_along hC h)

/-- No step brings a prekey back. -/
theorem step_preKeys {cv : Conv} {n m : Net} (h : Step cv n m) (b : Bool) (i : Nat) (hi : (n.world b).preKeys i = none) :
    (m.world b).preKeys i = none := by
  have hupd : ∀ (a : Bool) (w' : World), ((n.world a).preKeys i = none → w'.preKeys i = none) →
      (upd n.world a w' b).preKeys i = none := by
    intro a w' hw
    by_cases hab : b = a
    · subst hab; rw [upd_same]; exact hw hi
    · rw [upd_other _ _ hab]; exact hi
  cases h with
  | @send a pt c h1 h2 h3 => exact hupd a _ (C27_stays_removed [.encrypt (cv.addr a) pt] _ i)
  | @deliver a j c pt seed seeds h1 h2 h3 h4 h5 =>
    refine hupd a _ fun hn => ?_
    rcases receive_call (n.world a) (cv.addr a) c.getType c.serialize seed seeds with ⟨call, _, hc⟩ | hc
    · rw [← hc]; exact C27_stays_removed [call] _ i hn
    · rw [hc]; exact hn
  | @other a call h1 h2 h3 => exact hupd a _ (C27_stays_removed [call] _ i)

/-- The first message that is delivered takes the one-time prekey with it. -/
theorem honest_gone (hC : C.Lawful) {cv : Conv} {m m' : Net} {ids : Bool → ECPub} {hd : PkHeader} {g : Ghost .v3} (hg : GInv cv ids m g)
    (hw : WInv cv ids hd m g) (hwt : cv.waits = true) (hmacc : m.accepted false = []) (hs : Step cv m m') (hacc : m'.accepted false ≠ [])
    {i : Nat} (hi : cv.preKeyId = some i) (hmax : i ≠ 0xFFFFFF) : (m'.world false).preKeys i = none := by
  have q := hw.waiting hwt hmacc
  cases hs with
  | send h1 h2 h3 => exact absurd hmacc hacc
  | other h1 h2 h3 => exact absurd hmacc hacc
  | @deliver a j c pt seed seeds h1 h2 h3 h4 h5 =>
    obtain rfl : a = false := by
      cases a with
      | false => rfl
      | true =>
        have := q.silent
        simp only [Bool.not_true] at h1
        rw [this] at h1
        cases h1
    have hnot : j ∉ m.accepted false := by rw [hmacc]; simp
    obtain ⟨_, hres, _⟩ := conv_deliver_from hC ⟨⟨g, hg, hw, .refl m.keys g⟩, fun _ h => h⟩ seeds h1 h2 h3 h4 h5
    have hres := hres hnot
    obtain ⟨spk, otk, otId, secrets, k1, k2, k3, k4, k5, k6, k7, k8⟩ := q.keys
    obtain ⟨p, rfl⟩ := q.announced j c pt h1
    rcases hw.wire _ _ _ _ h1 with ⟨m, hm, _⟩ | ⟨_, _, mm, p0, p', hp0, hp⟩
    · cases hm
    obtain rfl : p = p0 := Ciphertext.preKey.inj hp0
    have hrec : Spec.receive (m.world false) (cv.addr false) (Ciphertext.preKey p).getType (Ciphertext.preKey p).serialize seed seeds =
        SessionCipher.decryptPkmsg (m.world false) (cv.addr false) p' seed seeds := by
      unfold Spec.receive Ciphertext.getType Ciphertext.serialize
      simp only
      rw [if_pos (by rfl), hp.parse]
    simp only [upd_same]
    rw [hrec] at hres ⊢
    have hnew : ¬ Spec.alreadyKnown (m.world false) (cv.addr false) p' := by
      rintro ⟨r, hr, hk⟩
      rw [hp.version, hp.bk] at hk
      exact q.new r hr hk
    have hpk : p'.preKeyId = some i := by
      rw [k1] at hi
      obtain rfl := Option.some.inj hi
      rw [hp.pk, k2]; rfl
    rcases C27_only_the_named (m.world false) (cv.addr false) p' seed seeds i with ⟨h, _⟩ | ⟨_, h⟩
    · exact h
    · exact absurd ⟨⟨_, hres⟩, hnew, hpk, hmax⟩ h

/-- **C89**, the other key that opens the first epoch.  Once side `false` has accepted a message of a conversation that began with
a bundle, the one-time prekey is no longer in its store, unless its id is the last-resort id. -/
theorem C89_prekey_gone (hC : C.Lawful) {cv : Conv} {n0 n : Net} (h0 : Start cv n0) (h : Steps cv n0 n) (hacc : n.accepted false ≠ [])
    {i : Nat} (hi : cv.preKeyId = some i) (hmax : i ≠ 0xFFFFFF) : (n.world false).preKeys i = none := by
  obtain ⟨ids, kb, ks, ko, kp, hd, g0, hkp, hid0, hc0, hset⟩ := chart hC h0
  have hwt : cv.waits = true := by
    cases h0 with
    | bundle => rfl
    | exchange => cases hi
  induction h with
  | refl =>
    exfalso
    cases h0 with
    | bundle => exact hacc rfl
    | exchange => cases hi
  | @step m m' hm hs ih =>
    by_cases hmacc : m.accepted false = []
    · obtain ⟨⟨⟨g, hg, hw, hext⟩, hk⟩, hid⟩ := steps_from hC hkp hc0 hid0 hm
      exact honest_gone hC hg hw hwt hmacc hs hacc hi hmax
    · exact step_preKeys hs false i (ih hmacc)

end

/-! ## Examples -/

attribute [local instance] toy
open Example Spec

/-- Everything but the keys of the setup that nobody keeps. -/
def keptKeys : KeyName → Prop := fun x => (∀ b, x ≠ .base b) ∧ x ≠ .oneTime

instance (l : List ECPub) (k : ECPub) : Decidable (retained l k) := by unfold retained; infer_instance

def theftCheck (n : Net) : Bool :=
  n.accepted false == [1] && n.accepted true == [1] &&
    ((n.sent true)[0]?.any fun (m : Ciphertext × Bytes) => decide ((header m.1).1 ∈ seenKeys (convCv.start false) (n.log false) →
      retained (seenKeys (convCv.start false) (n.log false)) (header m.1).1)) &&
    ((n.sent true)[1]?.any fun (m : Ciphertext × Bytes) => decide ((header m.1).1 ∈ conv0.keys)) && (n.sent false)[0]?.isSome && ((n.world false).preKeys 31).isNone

/-- Bob's state is stolen, with all keys that are kept: Alice's first message, which Bob has not got yet, can be read; the one he
has accepted and his own cannot.  The one-time prekey is gone. -/
example : ∃ n, Start convCv conv0 ∧ Steps convCv conv0 n ∧ (n.world false).preKeys 31 = none ∧
    ∃ key top, Describes key convCv.setup top convCv n ∧
      let K := (theft key top convCv n (· = false) keptKeys (fun _ _ => False)).Has convCv.setup (Placed key top n)
      Derives K (.text true 0) ∧ ¬ Derives K (.text true 1) ∧ ¬ Derives K (.text false 0) := by
  have h : convRun.any theftCheck = true := by decide +kernel
  cases hr : convRun with
  | none => rw [hr] at h; cases h
  | some n =>
    rw [hr] at h
    simp only [Option.any_some, theftCheck, Bool.and_eq_true, beq_iff_eq] at h
    obtain ⟨⟨⟨⟨⟨h1, h2⟩, h3⟩, h4⟩, h5⟩, h6⟩ := h
    have hs := convRun_steps hr
    refine ⟨n, conv_start, hs, C89_prekey_gone toy_lawful conv_start hs (by rw [h1]; simp) rfl (by decide), ?_⟩
    obtain ⟨key, top, _, k1, k2⟩ := C89_forward toy_lawful conv_start hs
    have k3 := k2 (· = false) keptKeys (fun _ _ => False) (fun _ _ _ _ => by rw [h1]; simp) (fun b hb => hb.1 b rfl) (fun ho => ho.2 rfl)
    refine ⟨key, top, k1, ?_⟩
    cases e0 : (n.sent true)[0]? with
    | none => rw [e0] at h3; cases h3
    | some m0 =>
      cases e1 : (n.sent true)[1]? with
      | none => rw [e1] at h4; cases h4
      | some m1 =>
        cases e2 : (n.sent false)[0]? with
        | none => rw [e2] at h5; cases h5
        | some m2 =>
          rw [e0] at h3
          refine ⟨(k3 false 0 m0.1 m0.2 e0 id).2 ⟨rfl, by rw [h1]; decide, of_decide_eq_true h3⟩, fun hd => ?_, fun hd => ?_⟩
          · exact ((k3 false 1 m1.1 m1.2 e1 id).1 hd).2.1 (by rw [h1]; decide)
          · cases ((k3 true 0 m2.1 m2.2 e2 id).1 hd).1

/-- With the setup keys that Bob had, the thief could read also the message that he has accepted. -/
example : ∃ n, Steps convCv conv0 n ∧ n.accepted false = [1] ∧
    ∃ key top, Begins key convCv conv0 ∧ Describes key convCv.setup top convCv n ∧
      Derives ((theft key top convCv n (fun _ => False) (fun x => x = .identity false ∨ x = .oneTime ∨ x = .ratchet 0)
        (fun _ _ => False)).Has convCv.setup (Placed key top n)) (.text true 1) := by
  have h : convRun.any theftCheck = true := by decide +kernel
  cases hr : convRun with
  | none => rw [hr] at h; cases h
  | some n =>
    rw [hr] at h
    simp only [Option.any_some, theftCheck, Bool.and_eq_true, beq_iff_eq] at h
    obtain ⟨⟨⟨⟨⟨h1, h2⟩, h3⟩, h4⟩, h5⟩, h6⟩ := h
    obtain ⟨key, top, k0, k1, k2⟩ := C89_setup toy_lawful conv_start (convRun_steps hr)
    refine ⟨n, convRun_steps hr, h1, key, top, k0, k1, ?_⟩
    cases e1 : (n.sent true)[1]? with
    | none => rw [e1] at h4; cases h4
    | some m1 =>
      rw [e1] at h4
      exact k2 _ (fun x => x = .identity false ∨ x = .oneTime ∨ x = .ratchet 0) _
        (Or.inr ⟨Or.inl rfl, by rw [if_pos (show convCv.waits = true from rfl)]; exact Or.inr (Or.inl rfl)⟩) (Or.inr (Or.inr rfl)) true 1 m1.1 m1.2 e1 (of_decide_eq_true h4)

/-- The conversation goes on: Alice sends, Bob gets it and replies, Alice gets the reply. -/
def healRun (n : Net) : Option Net :=
  (convSend convCv n true [97]).bind fun n => (convDeliver convCv n false 2 (key 54)).bind fun n =>
    (convSend convCv n false [98]).bind fun n => convDeliver convCv n true 2 (key 55)

theorem healRun_steps {n m : Net} (h : healRun n = some m) : Steps convCv n m := by
  unfold healRun at h
  obtain ⟨n1, h1, h⟩ := Option.bind_eq_some_iff.1 h
  obtain ⟨n2, h2, h⟩ := Option.bind_eq_some_iff.1 h
  obtain ⟨n3, h3, h⟩ := Option.bind_eq_some_iff.1 h
  exact (((Steps.refl.step (convSend_step h1)).step (convDeliver_step h2)).step (convSend_step h3)).step (convDeliver_step h)

/-- After that Alice's messages are secret again, although the states of both sides and all keys had been stolen. -/
example : ∃ n1 n2 c, Steps convCv conv0 n1 ∧ Steps convCv n1 n2 ∧
    (SessionCipher.encrypt (n2.world true) (convCv.addr true) [99]).result = .ok c ∧
    let n3 : Net := { n2 with
      world := upd n2.world true ((SessionCipher.encrypt (n2.world true) (convCv.addr true) [99]).final (n2.world true)),
      sent := upd n2.sent true (n2.sent true ++ [(c, [99])]) }
    ∃ key top1 top3, Describes key convCv.setup top1 convCv n1 ∧ Describes key convCv.setup top3 convCv n3 ∧
      ¬ Derives ((theft key top1 convCv n1 (fun _ => True) (fun x => ∀ j, x = .ratchet j → j ≤ top1) (fun _ i => i < 3)).Has convCv.setup
        (Placed key top3 n3)) (.text true 3) := by
  have h : convRun.any (fun n1 => (healRun n1).any fun n2 =>
      decide (toy.genPub (toy.genPriv (key 54)) ∈ seenKeys (convCv.start true) (n2.log true)) &&
      decide (toy.genPub (toy.genPriv (key 54)) ∉ n1.keys) && (n2.sent true).length == 3 &&
      match (SessionCipher.encrypt (n2.world true) (convCv.addr true) [99]).result with | .ok _ => true | .error _ => false) = true := by
    decide +kernel
  cases hr : convRun with
  | none => rw [hr] at h; cases h
  | some n1 =>
    rw [hr] at h
    simp only [Option.any_some] at h
    cases hr2 : healRun n1 with
    | none => rw [hr2] at h; cases h
    | some n2 =>
      rw [hr2] at h
      simp only [Option.any_some, Bool.and_eq_true, beq_iff_eq, decide_eq_true_eq] at h
      obtain ⟨⟨⟨h1, h2⟩, h3⟩, h4⟩ := h
      cases hc : (SessionCipher.encrypt (n2.world true) (convCv.addr true) [99]).result with
      | error e => rw [hc] at h4; cases h4
      | ok c =>
        refine ⟨n1, n2, c, convRun_steps hr, healRun_steps hr2, hc, ?_⟩
        obtain ⟨key, top1, top3, _, k1, k2, k3⟩ := C89_healed toy_lawful conv_start (convRun_steps hr) (healRun_steps hr2) h1 h2
          (by intro _ x; cases x) (by decide) hc
        refine ⟨key, top1, top3, k1, k2, ?_⟩
        have := k3 (fun _ => True) (fun x => ∀ j, x = .ratchet j → j ≤ top1) (fun _ i => i < 3) (fun j hj => hj j rfl) (by rw [h3]; decide)
        rw [h3] at this
        exact this

end Axolotl
