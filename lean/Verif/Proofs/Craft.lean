import Verif.Proofs.Forge
import Verif.Props.Active
import Verif.Props.Secrecy

/-! The names of the keys of a conversation with an attacker, and what computed messages can be. -/

namespace Axolotl
section
variable [C : Crypto]
open SessionState
open Spec (GoodPair Net Conv Step Start header AStep ASteps Attack Recorded Term KeyName Leak Derives Labelled Placed Spells Describes Begins
  Named Tagged Offered OfferedFirst OfSetup spkName Computed Crafted CraftedSetup Craft Outside)

/-! ## Steps -/

/-- What the stores keep: signed prekeys stay, one-time prekeys stay or are removed. -/
structure Kept (w w' : World) : Prop where
  pair : w'.identityKeyPair = w.identityKeyPair
  signed : w'.signedPreKeys = w.signedPreKeys
  preKeys : ∀ i, w'.preKeys i = none ∨ w'.preKeys i = w.preKeys i

omit C in
theorem Kept.refl (w : World) : Kept w w := ⟨rfl, rfl, fun _ => Or.inr rfl⟩

omit C in
theorem Kept.trans {w w' w'' : World} (h : Kept w w') (h' : Kept w' w'') : Kept w w'' := by
  refine ⟨h'.pair.trans h.pair, h'.signed.trans h.signed, fun i => ?_⟩
  rcases h'.preKeys i with e | e
  · exact Or.inl e
  · rw [e]; exact h.preKeys i

omit C in
theorem kept_applyAll (w : World) (ws : List Write) : Kept w (w.applyAll ws) := by
  refine ⟨applyAll_other.2.1, applyAll_other.1, fun i => ?_⟩
  rw [applyAll_preKeys]
  split
  · exact Or.inl rfl
  · exact Or.inr rfl

omit C in
theorem kept_upd {w : Bool → World} {b : Bool} {w' : World} (h : Kept (w b) w') (a : Bool) : Kept (w a) (upd w b w' a) := by
  by_cases hab : a = b
  · subst hab; rw [upd_same]; exact h
  · rw [upd_other _ _ hab]; exact .refl _

theorem asteps_from (hC : C.Lawful) {hd : PkHeader} {keys0 : List ECPub} {g0 : Ghost .v3} {ids : Bool → ECPub} {cv : Conv} {n m : Net}
    (hid : ∀ b, (n.world b).identityKeyPair.pub = ids b) (h : ConvFrom hd keys0 g0 ids cv n) (hs : ASteps cv n m) :
    ConvFrom hd keys0 g0 ids cv m ∧ ∀ b, Kept (n.world b) (m.world b) := by
  induction hs with
  | refl => exact ⟨h, fun b => .refl _⟩
  | @step m m' _ hs ih =>
    obtain ⟨ih, ihk⟩ := ih
    have ihid : ∀ b, (m.world b).identityKeyPair.pub = ids b := fun b => by rw [(ihk b).pair]; exact hid b
    cases hs with
    | honest hs =>
      cases hs with
      | send h1 h2 h3 => exact ⟨conv_send_from hC ih h1 h2 h3, fun b => (ihk b).trans (kept_upd (kept_applyAll _ _) b)⟩
      | deliver h1 h2 h3 h4 h5 =>
        exact ⟨(conv_deliver_from hC ih _ h1 h2 h3 h4 h5).1, fun b => (ihk b).trans (kept_upd (kept_applyAll _ _) b)⟩
      | @other b call h1 h2 h3 =>
        exact ⟨conv_other_from ih h1 (h2.imp id fun q _ => by rw [← ihid]; exact q) h3,
          fun b => (ihk b).trans (kept_upd (kept_applyAll _ _) b)⟩
    | @attack b type bytes seed seeds acc h1 h2 h3 h4 h5 h6 =>
      refine ⟨?_, fun b => (ihk b).trans (kept_upd (kept_applyAll _ _) b)⟩
      have hat := conv_attack_from hC ih ihid h1 h2 h3 h4 h5
      cases ho : (Spec.receive (m.world b) (cv.addr b) type bytes seed seeds).result with
      | error e =>
        rw [ho] at h6
        cases h6
        rw [show upd m.accepted b (m.accepted b) = m.accepted by
          funext a
          unfold upd
          split
          · rename_i e; rw [e]
          · rfl]
        exact (hat.refused e ho).1
      | ok pt =>
        rw [ho] at h6
        cases h6 with
        | @taken j c' pt' _ hj hin =>
          obtain ⟨i, c, q1, q2, q3, q4⟩ := hat.taken pt ho
          obtain ⟨⟨g, hg, hw, _⟩, _⟩ := ih
          have hsame : c.inner.serialized = c'.inner.serialized := by
            unfold Spec.InnerBytes at q3 hin
            split at q3
            · rename_i ht
              rw [if_pos ht] at hin
              obtain ⟨m, p1, p2⟩ := q3
              obtain ⟨m', p3, p4⟩ := hin
              rw [p1] at p3
              obtain rfl := Except.ok.inj p3
              rw [← p2, ← p4]
            · rename_i ht
              rw [if_neg ht] at hin
              rw [← q3, ← hin]
          obtain rfl := hg.unique hw q1 hj hsame
          exact q4

/-! ## Names -/

/-- Names for the keys, with those of the signed prekeys in the stores. -/
def allNames (g : Ghost .v3) (kp : Bool → KeyPair) (kb ks ko : ECPriv) (signed : Bool → Nat → Bytes) : KeyName → Bytes
  | .signed b i => signed b i
  | x => namesOf g kp kb ks ko x

theorem named_all (hC : C.Lawful) {cv : Conv} {n0 n : Net} (h0 : Start cv n0) {ids : Bool → ECPub} {g0 g g' : Ghost .v3} {kb ks ko : ECPriv}
    {hd : PkHeader} {keys keys' : List ECPub} (hids : ∀ b, (n0.world b).identityKeyPair.pub = ids b)
    (hset : SetupKeys cv n0 (g0.E 0) kb ks ko) (hkept : ∀ b, Kept (n0.world b) (n.world b))
    (hw0 : WInv cv ids hd n0 g0) (hg : GInv cv ids n g)
    (hw : WInv cv ids hd n g) (he : g0.Extends keys g) (he' : g.Extends keys' g') :
    Named (allNames g' (fun b => (n0.world b).identityKeyPair) kb ks ko fun b i => (((n0.world b).signedPreKeys i).bind (·.privateKey)).getD [])
      g.top hd.signedPreKeyId cv n := by
  generalize hkey : (allNames g' (fun b => (n0.world b).identityKeyPair) kb ks ko fun b i => (((n0.world b).signedPreKeys i).bind (·.privateKey)).getD []) = key
  have hr : ∀ j, j ≤ g.top → key (.ratchet j) = (g.E j).priv := by
    intro j hj
    rw [← hkey]
    show (g'.E j).priv = _
    rw [he'.same j hj]
  have hpub : ∀ j, j ≤ g.top → C.genPub (key (.ratchet j)) = (g.E j).pub := by
    intro j hj; rw [hr j hj, (hg.good j hj).pub]
  have hi : ∀ b, key (.identity b) = (n0.world b).identityKeyPair.priv := by rw [← hkey]; intro b; rfl
  have hb : key (.base true) = kb := by rw [← hkey]; rfl
  have ho : key .oneTime = ko := by rw [← hkey]; rfl
  have hsg : ∀ b i, key (.signed b i) = (((n0.world b).signedPreKeys i).bind (·.privateKey)).getD [] := by rw [← hkey]; intro b i; rfl
  have hset' : SetupKeys cv n0 (g.E 0) kb ks ko := by rw [he.same 0 (Nat.zero_le _)]; exact hset
  have hid : ∀ b, (n.world b).identityKeyPair = ⟨C.genPub (key (.identity b)), key (.identity b)⟩ := by
    intro b
    rw [(hkept b).pair, hi b, ← (hset.identity b).pub]
  have hwait0 : cv.waits = true → Waiting cv ids hd n0 g0 := by
    intro hwt
    refine hw0.waiting hwt ?_
    cases h0 <;> rfl
  have hhd : cv.waits = true → hd.baseKey = C.genPub kb ∧ hd.preKeyId = cv.preKeyId := by
    intro hwt
    obtain ⟨spk, otk, otId, _, k1, k2, _⟩ := (hwait0 hwt).keys
    obtain ⟨_, r, p, b1, b2, _, b4⟩ := hset.begins otId k1
    obtain ⟨r', a1, a2⟩ := (hwait0 hwt).announcing
    rw [b1] at a1
    obtain rfl := Option.some.inj a1
    have := a2.pending
    rw [b2] at this
    obtain rfl := Option.some.inj this
    simp only [Curve.serializePoint, Option.some.injEq, List.cons.injEq] at b4
    exact ⟨b4.2, by rw [k1, k2]⟩
  have hsl : ∀ b j, Labelled key g.top (sendChain (g.E (g.e b)) (g.n b)) j ↔ j = g.e b :=
    fun b j => labelled_iff hg hpub (hg.lo b) rfl
  have hopen : ∀ b r, n.joined cv b → (n.world b).sessions (cv.addr b) = some r →
      Party (ids b) (ids !b) (g.E (g.e b)) (g.n b) (last5 (g.full b)) r.sessionState ∧
      (b = false → cv.waits = true → r.sessionState.aliceBaseKey = some (Curve.serializePoint hd.baseKey)) := by
    intro b r hj hr
    rcases hw.sides b with ⟨r', q1, q2, q3, q4⟩ | ⟨hb, q⟩
    · rw [hr] at q1
      obtain rfl := Option.some.inj q1
      exact ⟨q2, q4⟩
    · exact absurd q.accepted (hj q.waits hb)
  refine ⟨describe hC hg hw hr hid (fun b => by rw [(hkept b).pair]; exact hids b) ?_, ?_, ?_, ?_, ?_, ?_, ?_, ?_, ?_⟩
  · exact value_epoch hC hset' hg.good hg.next hr hi hb (fun _ => by rw [← hkey]; rfl) ho
  · rintro b i j k ⟨p1, c, pt, p2, p3⟩
    obtain ⟨t, k', m1, m2, m3, m4⟩ := hg.msg b i c pt p2
    have hj : 2 * t + off (!b) ≤ g.top := Nat.le_trans m2 (hg.lo _)
    have hh : header c = ((g.E (2 * t + off (!b))).pub, k') := by unfold header; rw [m4.key, m4.counter]
    rw [hh, hpub j p1] at p3
    injection p3 with p3 _
    obtain rfl := hg.inj _ _ hj p1 p3
    cases b <;> simp [off]
  · intro b r c j hj hr hc hl
    obtain ⟨q, _⟩ := hopen b r hj hr
    rw [q.sender] at hc
    obtain rfl := Option.some.inj hc
    obtain rfl := (hsl b j).1 hl
    have := hg.e_succ b
    cases b <;> simp [off] at this ⊢ <;> omega
  · intro b r c j hj hr hc hl
    obtain ⟨q, _⟩ := hopen b r hj hr
    rw [q.recv, List.mem_map] at hc
    obtain ⟨x, hx, rfl⟩ := hc
    obtain ⟨t, ht, _⟩ := mem_last5.1 hx
    have hep := hg.ep b t x ht
    have : j = 2 * t + off b := by
      refine (labelled_iff hg hpub (hg.pos_le (List.getElem?_eq_some_iff.1 ht).1) ?_).1 hl
      rw [← hep]; rfl
    subst this
    cases b <;> simp [off]
  · intro b i r k hs hk
    rw [(hkept b).signed] at hs
    unfold spkName
    split
    · rename_i hc
      obtain ⟨hwt, rfl, rfl⟩ := hc
      obtain ⟨spk, otk, otId, _, k1, k2, k3, ⟨r', k4, k5, k6⟩, _⟩ := (hwait0 hwt).keys
      rw [hs] at k4
      obtain rfl := Option.some.inj k4
      rw [hr 0 (Nat.zero_le _), he.same 0 (Nat.zero_le _), k3, ← hk.2, k6]
      rfl
    · rw [hsg, hs, ← hk.2]
      rfl
  · intro i r k hi hp hk
    obtain ⟨⟨r', a1, a2, a3⟩, _⟩ := hset.begins i hi
    rcases (hkept false).preKeys i with e | e
    · rw [e] at hp; cases hp
    · rw [e, a1] at hp
      obtain rfl := Option.some.inj hp
      rw [← hk.2, a3, ho]
      rfl
  · intro hwt
    rw [hb]
    obtain ⟨_, ⟨d1, d2, d3, d4, m1, m2, _⟩, _⟩ := hset.material
    exact (hC.dh_size _ _ _ m2).1
  · intro i p pt hp
    rcases hw.wire _ _ _ _ hp with ⟨m, hm, _⟩ | ⟨_, hwt, m, p0, p', hp0, hann⟩
    · cases hm
    obtain rfl : p = p0 := Ciphertext.preKey.inj hp0
    obtain ⟨y1, y2, y3, _⟩ := hann.sent
    exact ⟨hwt, by rw [y3, hb]; exact (hhd hwt).1, by rw [y1]; exact (hhd hwt).2, y2⟩
  · intro r hwt hacc hr
    obtain ⟨_, q⟩ := hopen false r (fun _ _ => hacc) hr
    rw [q rfl hwt, (hhd hwt).1, hb]
    rfl

/-- The invariants at a moment of a conversation with an attacker. -/
theorem craft_moment (hC : C.Lawful) {cv : Conv} {n0 n : Net} (h0 : Start cv n0) (h : ASteps cv n0 n) :
    ∃ (ids : Bool → ECPub) (hd : PkHeader) (g : Ghost .v3), (∀ b, (n.world b).identityKeyPair.pub = ids b) ∧
      (∀ b, GoodPair (n.world b).identityKeyPair) ∧ GInv cv ids n g ∧ WInv cv ids hd n g := by
  obtain ⟨ids, kb, ks, ko, h1, hd, g0, ⟨h2, h2'⟩, h3⟩ := start_full hC h0
  obtain ⟨⟨⟨g, hg, hw, _⟩, _⟩, hk⟩ := asteps_from hC h1 ⟨⟨g0, h2, h2', .refl _ _⟩, fun _ h => h⟩ h
  exact ⟨ids, hd, g, fun b => by rw [(hk b).pair]; exact h1 b, fun b => by rw [(hk b).pair]; exact h3.identity b, hg, hw⟩

/-! ## Values -/

theorem value_steps {key : KeyName → Bytes} {pt : Bool → Nat → Bytes} {c : Term} {ck : Bytes} (h : c.value key pt = ck) (k : Nat) :
    (Term.stepsFrom c k).value key pt = Spec.chainAt ck k := by
  induction k with
  | zero => exact h
  | succ k ih =>
    show C.hmac ((Term.stepsFrom c k).value key pt) [2] = _
    rw [ih]; rfl

theorem value_macFrom (hC : C.Lawful) {key : KeyName → Bytes} {pt : Bool → Nat → Bytes} {c : Term} {ck : Bytes} (h : c.value key pt = ck)
    (k : Nat) : (Term.macFrom c k).value key pt = Spec.macKeyOf (Spec.chainAt ck k) := by
  unfold Term.macFrom
  rw [value_block, (hkdf80 hC.hmac_len _).2.1]
  simp only [Term.value, Term.noSalt]
  rw [value_steps h]

theorem root_value_len (hC : C.Lawful) {key : KeyName → Bytes} {pt : Bool → Nat → Bytes} (i : Bytes) (t : Term) (p : Nat) :
    ((Term.block i t p).value key pt).length = 32 := by
  rw [value_block]; exact hkdfT_len hC.hmac_len _ _ _

/-- The first chain key after a ratchet step. -/
theorem value_ratchet (hC : C.Lawful) {key : KeyName → Bytes} {pt : Bool → Nat → Bytes} {r d : Term} {secret : Bytes}
    (hlen : (r.value key pt).length = 32) (hd : d.value key pt = secret) :
    (Term.block Spec.ratchetInfo (.hmac r d) 1).value key pt = Spec.ratchetChain (r.value key pt) secret := by
  have hne : r.value key pt ≠ [] := by intro e; rw [e] at hlen; cases hlen
  rw [value_block]
  unfold Spec.ratchetChain
  rw [(hkdf64 hC.hmac_len _ _ _).2, if_neg hne]
  simp only [Term.value]
  rw [hd]

/-- The MAC key of a ratchet step, by the name of the key if it has one. -/
theorem value_step (hC : C.Lawful) {key : KeyName → Bytes} {s : Term} {j top k : Nat} {eph : ECPub} {d : Bytes}
    (hd : C.dh (key (.ratchet j)) eph = some d) :
    (j + 1 ≤ top ∧ eph = C.genPub (key (.ratchet (j + 1))) ∧ (Term.macKey s (j + 1) k).value key (fun _ _ => []) =
      Spec.macKeyOf (Spec.chainAt (Spec.ratchetChain ((Term.root s j).value key fun _ _ => []) d) k)) ∨
    ((j + 1 ≤ top → eph ≠ C.genPub (key (.ratchet (j + 1)))) ∧ (Term.strayMac (.root s j) d k).value key (fun _ _ => []) =
      Spec.macKeyOf (Spec.chainAt (Spec.ratchetChain ((Term.root s j).value key fun _ _ => []) d) k)) := by
  have hlen := root_value_len (key := key) (pt := fun _ _ => []) hC (Term.info j) (Term.epoch s j) 0
  by_cases hj : j + 1 ≤ top ∧ eph = C.genPub (key (.ratchet (j + 1)))
  · refine Or.inl ⟨hj.1, hj.2, ?_⟩
    rw [Spec.Term.macKey_from]
    refine value_macFrom hC ?_ k
    refine value_ratchet hC (d := .agree (.ratchet j) (.ratchet (j + 1))) hlen ?_
    show (C.dh _ _).getD [] = d
    rw [← hj.2, hd]
    rfl
  · refine Or.inr ⟨fun h e => hj ⟨h, e⟩, ?_⟩
    exact value_macFrom hC (value_ratchet hC hlen rfl) k

omit C in
theorem decode_self {x eph : Bytes} (hx : x.length = 32) (h : Curve.decodePoint (5 :: x) = .ok eph) : eph = x := by
  obtain ⟨y, h1, h2⟩ := decodePoint_KeyOf (o := some (5 :: x)) h
  simp only [Option.some.injEq, List.cons.injEq, true_and] at h1
  rw [h2, ← h1, List.take_of_length_le (by omega)]

theorem offered_value (hC : C.Lawful) {key : KeyName → Bytes} {s : Term} {top : Nat} {st : SessionState} (hs : Spells key s top st)
    (hlen : ∀ c ∈ st.receiverChains, ∀ x, c.senderRatchetKey = some (5 :: x) → x.length = 32) {eph : ECPub} {k : Nat} {x : Bytes}
    (h : Spec.MacKey st eph k x) : ∃ M, Offered key s top st eph k M ∧ M.value key (fun _ _ => []) = x := by
  cases h with
  | @stored c e h1 h2 h3 h4 =>
    obtain ⟨j, i, ks, q1, q2⟩ := hs.recv c h1
    have hx := hlen c h1
    rw [q2] at h2 h3 hx
    have he := decode_self (hx _ rfl) h2
    obtain ⟨m, _, rfl⟩ := List.mem_map.1 h3
    obtain rfl : m = k := h4
    exact ⟨_, .chain h1 ⟨q1, by rw [q2]⟩ he, rfl⟩
  | @ahead c i h1 h2 h3 h4 =>
    obtain ⟨j, i', ks, q1, q2⟩ := hs.recv c h1
    have hx := hlen c h1
    rw [q2] at h2 h3 hx
    have he := decode_self (hx _ rfl) h2
    obtain rfl : i' = i := h3
    refine ⟨_, .chain h1 ⟨q1, by rw [q2]⟩ he, ?_⟩
    rw [q2]
    show _ = Spec.macKeyOf (Spec.chainAt ((Term.chain s j i').value key fun _ _ => []) (k - i'))
    rw [Spec.Term.macKey_from, value_macFrom hC rfl, value_chain rfl i']
    congr 1
    obtain ⟨d, rfl⟩ : ∃ d, k = i' + d := ⟨k - i', by omega⟩
    rw [Nat.add_sub_cancel_left]
    generalize (Term.chain s j 0).value key (fun _ _ => []) = ck
    clear q2 h4
    induction d with
    | zero => rfl
    | succ d ih => show C.hmac (Spec.chainAt ck (i' + d)) _ = C.hmac (Spec.chainAt _ d) _; rw [ih]
  | @ratchet c secret h1 h2 =>
    obtain ⟨j, i, q1, q2, q3⟩ := hs.send
    rw [h1] at q3
    have q3 := Option.some.inj q3
    rw [q3] at h2
    have hl : Labelled key top c j := ⟨q1, by rw [q3]⟩
    rw [q2]
    rcases value_step (s := s) (top := top) (k := k) hC h2 with ⟨v1, v2, v3⟩ | ⟨v1, v2⟩
    · exact ⟨_, .next h1 hl v1 v2, v3⟩
    · exact ⟨_, .stray h1 hl v1 h2, v2⟩

/-- The states of the conversation offer the keys of these terms. -/
theorem offered_current (hC : C.Lawful) {cv : Conv} {n0 n : Net} (h0 : Start cv n0) (h : ASteps cv n0 n) {key : KeyName → Bytes}
    {top spkId : Nat} (hn : Named key top spkId cv n) {b : Bool} (hj : n.joined cv b) {r : SessionRecord}
    (hr : (n.world b).sessions (cv.addr b) = some r) {eph : ECPub} {k : Nat} {x : Bytes} (hx : Spec.MacKey r.sessionState eph k x) :
    ∃ M, Offered key cv.setup top r.sessionState eph k M ∧ M.value key (fun _ _ => []) = x := by
  obtain ⟨r', e1, e2⟩ := hn.describes.state b hj
  rw [hr] at e1
  obtain rfl := Option.some.inj e1
  refine offered_value hC e2 ?_ hx
  obtain ⟨ids, hd, g, hid, hgood, hg, hw⟩ := craft_moment hC h0 h
  rcases hw.sides b with ⟨r', q1, q2, _⟩ | ⟨hb, q⟩
  · rw [hr] at q1
    obtain rfl := Option.some.inj q1
    intro c hc y hy
    rw [q2.recv, List.mem_map] at hc
    obtain ⟨z, hz, rfl⟩ := hc
    obtain ⟨t, ht, _⟩ := mem_last5.1 hz
    have hep := hg.ep b t z ht
    have : z.ep.pub = y := by
      simp only [Recv.chain, Curve.serializePoint, Option.some.injEq, List.cons.injEq] at hy
      exact hy.2
    rw [← this, hep]
    exact ((hg.good _ (hg.pos_le (List.getElem?_eq_some_iff.1 ht).1)).pub_len hC)
  · exact absurd q.accepted (hj q.waits hb)

/-- The states that setup messages make offer the keys of these terms. -/
theorem offered_first (hC : C.Lawful) {cv : Conv} {n0 n : Net} (h0 : Start cv n0) (h : ASteps cv n0 n) {key : KeyName → Bytes}
    {top spkId : Nat} (hn : Named key top spkId cv n) {b : Bool} {m : PreKeyWhisperMessage}
    (hid : m.identityKey = (n.world (!b)).identityKeyPair.pub) {s : SessionState} (hs : Spec.SetUp (n.world b) m s) {x : Bytes}
    (hx : Spec.MacKey s m.message.senderRatchetKey m.message.counter x) :
    ∃ M, OfferedFirst key top spkId cv b m M ∧ M.value key (fun _ _ => []) = x := by
  obtain ⟨_, _, _, _, hgood, _, _⟩ := craft_moment hC h0 h
  have hkid : ∀ b, (key (.identity b)).length = 32 := by
    intro b
    have := (hgood b).priv
    rw [hn.describes.identity b] at this
    exact this
  obtain ⟨signed, spk, otk, okm, lr, h1, h2, h3, h4, ⟨d1, d2, d3, d4, e1, e2, e3, e4, rfl⟩, h6, rfl⟩ := hs
  have hspk := hn.signed b _ _ _ h1 h2
  cases hx with
  | stored h => cases h
  | ahead h => cases h
  | @ratchet c secret hc hd =>
    obtain rfl := Option.some.inj hc
    replace hd : C.dh spk.priv m.message.senderRatchetKey = some secret := hd
    have hl := (hC.dh_size _ _ _ e1).1
    rw [hn.describes.identity] at hid
    rw [hid, hspk] at e1
    rw [hspk] at hl e3 hd
    rw [hn.describes.identity b] at e2
    have hcomm : ∀ {a c : Bytes} {d : Bytes}, a.length = 32 → c.length = 32 → C.dh a (C.genPub c) = some d → C.dh c (C.genPub a) = some d := by
      intro a c d ha hc hd
      obtain ⟨s, g1, g2⟩ := hC.dh_comm a c ha hc
      rw [hd] at g1
      rw [g2, ← g1]
    have e1' := hcomm hl (hkid _) e1
    by_cases hof : OfSetup key spkId cv b m
    · obtain ⟨hwt, rfl, o1, o2, o3⟩ := id hof
      have hname : spkName cv spkId false m.signedPreKeyId = .ratchet 0 := by unfold spkName; rw [if_pos ⟨hwt, rfl, o3⟩]
      rw [hname] at e1' e3 hd hl
      have hbl := hn.base hwt
      obtain ⟨i, hi⟩ : ∃ i, cv.preKeyId = some i := by
        cases h0 with
        | bundle => exact ⟨_, rfl⟩
        | exchange => cases hwt
      obtain ⟨p, kk, g1, g2, rfl⟩ := h4 i (by rw [o2, hi])
      have hko := hn.oneTime i p kk hi g1 g2
      simp only [Option.map_some, Option.elim_some] at e4
      rw [hko] at e4
      have hol := (hC.dh_size _ _ _ e4).1
      rw [o1] at e2 e3 e4
      have hroot : (Term.root cv.setup 0).value key (fun _ _ => []) =
          (Spec.hkdf [] (List.replicate 32 0xFF ++ d1 ++ d2 ++ d3 ++ d4) Spec.textInfo 64).take 32 := by
        show (Term.block _ _ 0).value key _ = _
        rw [value_block, (hkdf64 hC.hmac_len [] _ Spec.textInfo).1]
        show Spec.hkdfT (C.hmac _ (Term.value key _ (Conv.setup cv))) _ _ = _
        unfold Conv.setup
        rw [hwt]
        simp only [if_true, Term.setup, Term.value]
        rw [show C.dh (key (.identity true)) _ = _ from e1', hcomm (hkid false) hbl e2, hcomm hl hbl e3, hcomm hol hbl e4]
        simp [List.append_assoc, Term.noSalt, Term.value, Term.info]
      show ∃ M : Term, _ ∧ M.value key _ = Spec.macKeyOf (Spec.chainAt (Spec.ratchetChain
        ((Spec.hkdf [] (List.replicate 32 0xFF ++ d1 ++ d2 ++ d3 ++ d4) Spec.textInfo 64).take 32) secret) _)
      rw [← hroot]
      rcases value_step (s := cv.setup) (top := top) (k := m.message.counter) hC hd with ⟨v1, v2, v3⟩ | ⟨v1, v2⟩
      · exact ⟨_, .join hof v1 v2, v3⟩
      · exact ⟨_, .early hof v1 hd, v2⟩
    · refine ⟨_, .other (rest := d2 ++ d3 ++ d4) (d := secret) hof, ?_⟩
      have hroot : (Term.otherRoot (.agree (.identity !b) (spkName cv spkId b m.signedPreKeyId)) (d2 ++ d3 ++ d4)).value key (fun _ _ => []) =
          (Spec.hkdf [] (List.replicate 32 0xFF ++ d1 ++ d2 ++ d3 ++ d4) Spec.textInfo 64).take 32 := by
        unfold Term.otherRoot
        rw [value_block, (hkdf64 hC.hmac_len [] _ Spec.textInfo).1]
        simp only [Term.value, Term.noSalt]
        rw [e1']
        simp [List.append_assoc]
      show _ = Spec.macKeyOf (Spec.chainAt (Spec.ratchetChain
        ((Spec.hkdf [] (List.replicate 32 0xFF ++ d1 ++ d2 ++ d3 ++ d4) Spec.textInfo 64).take 32) secret) _)
      rw [← hroot]
      exact value_macFrom hC (value_ratchet hC (root_value_len hC _ _ _) rfl) _

/-! ## What a MAC that verifies can be -/

/-- A MAC of the conversation belongs to a message. -/
theorem tagged_sent (hC : C.Lawful) {key : KeyName → Bytes} {s : Term} {top : Nat} {cv : Conv} {n : Net} (hn : Describes key s top cv n)
    {b : Bool} {j k : Nat} {body : Bytes} (h : Tagged key top n b j k body) :
    ∃ (i : Nat) (c : Ciphertext) (pt : Bytes), (n.sent b)[i]? = some (c, pt) ∧ Placed key top n b i j k ∧
      c.inner.serialized = body ++ ((Term.tag s b j k body).value key fun _ _ => []).take 8 := by
  obtain ⟨i, c, pt, mac, h1, h2, h3, h4, h5⟩ := h
  refine ⟨i, c, pt, h1, ⟨h2, c, pt, h1, h3⟩, ?_⟩
  obtain ⟨j', k', ⟨p1, c', pt', p2, p3⟩, p4, _⟩ := hn.sent b i c pt h1
  rw [h1] at p2
  obtain rfl : c = c' := congrArg Prod.fst (Option.some.inj p2)
  rw [h3] at p3
  injection p3 with p3 p5
  obtain rfl := hn.distinct _ _ h2 p1 p3
  subst p5
  obtain ⟨body', mac', q1, q2, q3⟩ := verifyMac_ok hC.hmac_len p4 (by omega)
  rw [h4] at q1
  obtain ⟨rfl, rfl⟩ := List.append_inj' q1 (by omega)
  rw [h4, q3]
  simp [Term.tag, Term.value]

theorem tag_body {key : KeyName → Bytes} {s M y : Term} {b : Bool} {j k : Nat} {body body' them me : Bytes}
    (h : Term.hmac M y = .tag s b j k body') (hy : y.value key (fun _ _ => []) = (5 :: them) ++ (5 :: me) ++ body)
    (hl : ∀ b, (C.genPub (key (.identity b))).length = 32) (h1 : them.length = 32) (h2 : me.length = 32) : body' = body := by
  have hy' := congrArg (Term.value key fun _ _ => []) (Spec.Term.hmac.inj h).2
  rw [hy] at hy'
  simp only [Term.value] at hy'
  simp only [List.cons_append, List.nil_append, List.append_assoc, List.cons.injEq, true_and] at hy'
  have a1 := List.append_inj hy' (by rw [h1, hl])
  have a2 := List.append_inj (List.cons.inj a1.2).2 (by rw [h2, hl])
  exact a2.2.symm

omit C in
theorem keyOf_len {stored : Option Bytes} {x k : Bytes} (hs : stored = some (5 :: x)) (hx : x.length = 32)
    (h : Spec.KeyOf stored k) : k.length = 32 := by
  obtain ⟨y, h1, h2⟩ := h
  rw [hs] at h1
  simp only [Option.some.injEq, List.cons.injEq, true_and] at h1
  rw [h2, ← h1, List.length_take, hx]
  rfl

end
end Axolotl
