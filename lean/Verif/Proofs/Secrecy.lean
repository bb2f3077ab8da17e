import Verif.Proofs.Derive
import Verif.Props.Conversation

/-! The names of the keys of a conversation, and what session states give away. -/

namespace Axolotl
section
variable [C : Crypto]
open Spec (GoodPair Net Conv Step Steps Start header Term KeyName Leak Derives nextCounter seenKeys retained Labelled Placed Spells
  Describes Begins theft)
open SessionState

/-! ## Steps -/

omit C in
theorem upd_pair {w : Bool → World} {b : Bool} {w' : World} {kp : Bool → KeyPair} (h : ∀ a, (w a).identityKeyPair = kp a)
    (hb : w'.identityKeyPair = (w b).identityKeyPair) (a : Bool) : (upd w b w' a).identityKeyPair = kp a := by
  by_cases hab : a = b
  · subst hab; rw [upd_same, hb]; exact h a
  · rw [upd_other _ _ hab]; exact h a

theorem steps_from (hC : C.Lawful) {v : Kdf} {hd : PkHeader} {keys0 : List ECPub} {g0 : Ghost v} {ids : Bool → ECPub} {cv : Conv} {n m : Net}
    {kp : Bool → KeyPair} (hkp : ∀ b, (kp b).pub = ids b) (h : ConvFrom hd keys0 g0 ids cv n)
    (hid : ∀ b, (n.world b).identityKeyPair = kp b) (hs : Steps cv n m) :
    ConvFrom hd keys0 g0 ids cv m ∧ ∀ b, (m.world b).identityKeyPair = kp b := by
  induction hs with
  | refl => exact ⟨h, hid⟩
  | step _ hs ih =>
    obtain ⟨ih, ihid⟩ := ih
    cases hs with
    | send h1 h2 h3 => exact ⟨conv_send_from hC ih h1 h2 h3, upd_pair ihid (final_identity _ _)⟩
    | deliver h1 h2 h3 h4 h5 => exact ⟨(conv_deliver_from hC ih _ h1 h2 h3 h4 h5).1, upd_pair ihid (final_identity _ _)⟩
    | @other b call h1 h2 h3 =>
      refine ⟨conv_other_from ih h1 ?_ h3, upd_pair ihid (C30_isolation _ call).2.2.2.1⟩
      exact h2.imp id fun q _ => by rw [← hkp (!b), ← ihid (!b)]; exact q

/-! ## Values of terms -/

theorem value_block (key : KeyName → Bytes) (pt : Bool → Nat → Bytes) (i : Bytes) (t : Term) (p : Nat) :
    (Term.block i t p).value key pt = Spec.hkdfT (t.value key pt) i (p + 1) := by
  induction p with
  | zero => simp [Term.block, Term.value, Spec.hkdfT]
  | succ p ih =>
    rw [Spec.Term.block_succ]
    simp only [Term.value]
    rw [ih]
    show _ = C.hmac _ (Spec.hkdfT _ _ (p + 1) ++ i ++ _)
    rw [List.append_assoc]

theorem hkdfT_len (hlen : ∀ k m, (C.hmac k m).length = 32) (k i : Bytes) (p : Nat) : (Spec.hkdfT k i (p + 1)).length = 32 :=
  hlen _ _

theorem hkdf64 (hlen : ∀ k m, (C.hmac k m).length = 32) (salt ikm i : Bytes) :
    let prk := C.hmac (if salt = [] then List.replicate 32 0 else salt) ikm
    (Spec.hkdf salt ikm i 64).take 32 = Spec.hkdfT prk i 1 ∧ (Spec.hkdf salt ikm i 64).drop 32 = Spec.hkdfT prk i 2 := by
  intro prk
  have e : Spec.hkdf salt ikm i 64 = Spec.hkdfT prk i 1 ++ Spec.hkdfT prk i 2 := by
    show ((([0, 1] : List Nat).map fun j => Spec.hkdfT prk i (j + 1)).flatten).take 64 = _
    simp only [List.map_cons, List.map_nil, List.flatten_cons, List.flatten_nil, List.append_nil, Nat.zero_add]
    apply List.take_of_length_le
    rw [List.length_append, hkdfT_len hlen, hkdfT_len hlen]; decide
  rw [e]
  have h1 := hkdfT_len hlen prk i 0
  exact ⟨List.take_left' h1, List.drop_left' h1⟩

theorem hkdf80 (hlen : ∀ k m, (C.hmac k m).length = 32) (ck : Bytes) :
    let prk := C.hmac (List.replicate 32 0) (C.hmac ck [1])
    Spec.cipherKeyOf ck = Spec.hkdfT prk Spec.messageKeysInfo 1 ∧ Spec.macKeyOf ck = Spec.hkdfT prk Spec.messageKeysInfo 2 ∧
    Spec.ivOf ck = (Spec.hkdfT prk Spec.messageKeysInfo 3).take 16 := by
  intro prk
  have h1 : (Spec.hkdfT prk Spec.messageKeysInfo 1).length = 32 := hkdfT_len hlen _ _ _
  have h2 : (Spec.hkdfT prk Spec.messageKeysInfo 2).length = 32 := hkdfT_len hlen _ _ _
  have h3 : (Spec.hkdfT prk Spec.messageKeysInfo 3).length = 32 := hkdfT_len hlen _ _ _
  have e : Spec.messageOkm ck = Spec.hkdfT prk Spec.messageKeysInfo 1 ++ (Spec.hkdfT prk Spec.messageKeysInfo 2 ++
      (Spec.hkdfT prk Spec.messageKeysInfo 3).take 16) := by
    show ((([0, 1, 2] : List Nat).map fun j => Spec.hkdfT prk Spec.messageKeysInfo (j + 1)).flatten).take 80 = _
    simp only [List.map_cons, List.map_nil, List.flatten_cons, List.flatten_nil, List.append_nil, Nat.zero_add]
    rw [List.take_append, h1, List.take_of_length_le (by omega), List.take_append, show (Spec.hkdfT prk Spec.messageKeysInfo (1 + 1)).length = 32 from h2,
      List.take_of_length_le (show (Spec.hkdfT prk Spec.messageKeysInfo 2).length ≤ _ by omega)]
  unfold Spec.cipherKeyOf Spec.macKeyOf Spec.ivOf
  rw [e]
  refine ⟨List.take_left' h1, ?_, ?_⟩
  · rw [List.drop_left' h1, List.take_left' h2]
  · rw [show 64 = 32 + 32 from rfl, ← List.drop_drop, List.drop_left' h1, List.drop_left' h2]

/-- The keys of message number `k`, given the chain key. -/
theorem value_message (hC : C.Lawful) {key : KeyName → Bytes} {pt : Bool → Nat → Bytes} {s : Term} {j k : Nat} {ck : Bytes}
    (h : (Term.chain s j k).value key pt = ck) :
    (Term.cipherKey s j k).value key pt = Spec.cipherKeyOf ck ∧ (Term.macKey s j k).value key pt = Spec.macKeyOf ck ∧
    ((Term.iv s j k).value key pt).take 16 = Spec.ivOf ck := by
  obtain ⟨a, b, c⟩ := hkdf80 hC.hmac_len ck
  have hm : (Term.material s j k).value key pt = C.hmac (List.replicate 32 0) (C.hmac ck [1]) := by
    rw [← h]; rfl
  unfold Term.cipherKey Term.macKey Term.iv
  rw [value_block, value_block, value_block, hm, a, b, c]
  exact ⟨rfl, rfl, rfl⟩

theorem value_chain {key : KeyName → Bytes} {pt : Bool → Nat → Bytes} {s : Term} {j : Nat} {ck : Bytes}
    (h : (Term.chain s j 0).value key pt = ck) (k : Nat) : (Term.chain s j k).value key pt = Spec.chainAt ck k := by
  induction k with
  | zero => exact h
  | succ k ih =>
    show C.hmac ((Term.chain s j k).value key pt) [2] = _
    rw [ih]; rfl

/-- Root key and first chain key of each epoch. -/
theorem value_epoch (hC : C.Lawful) {cv : Conv} {n : Net} {g : Ghost .v3} {kb ks ko : ECPriv} {key : KeyName → Bytes}
    {pt : Bool → Nat → Bytes} (hs : SetupKeys cv n (g.E 0) kb ks ko)
    (hgood : ∀ j, j ≤ g.top → (g.E j).Good) (hnext : ∀ j, j < g.top → (g.E j).Next (g.E (j + 1)))
    (hr : ∀ j, j ≤ g.top → key (.ratchet j) = (g.E j).priv) (hi : ∀ b, key (.identity b) = (n.world b).identityKeyPair.priv)
    (hb : key (.base true) = kb) (hsp : cv.waits = false → key (.base false) = ks) (ho : key .oneTime = ko) :
    ∀ j, j ≤ g.top → (Term.root cv.setup j).value key pt = (g.E j).root ∧ (Term.chain cv.setup j 0).value key pt = (g.E j).chain := by
  have hset : ∃ okm, (Term.epoch cv.setup 0).value key pt = C.hmac (List.replicate 32 0) okm ∧
      (g.E 0).root = (Spec.hkdf [] okm Spec.textInfo 64).take 32 ∧ (g.E 0).chain = (Spec.hkdf [] okm Spec.textInfo 64).drop 32 := by
    obtain ⟨okm, ⟨d1, d2, d3, d4, m1, m2, m3, m4, m5⟩, e1, e2⟩ := hs.material
    subst m5
    refine ⟨_, ?_, e1, e2⟩
    rw [(hs.identity false).pub, ← hi, ← hb] at m2
    rw [← hi] at m1
    rw [← hb] at m3
    cases hw : cv.waits with
    | true =>
      rw [hw] at m4
      simp only [if_true, Option.elim_some] at m4
      have hk := hr 0 (Nat.zero_le _)
      rw [← hs.signed hw] at hk
      rw [← hk] at m1 m3
      rw [← ho, ← hb] at m4
      show C.hmac _ (Term.value key pt (Conv.setup cv)) = _
      unfold Conv.setup
      rw [hw]
      simp only [if_true, Term.setup, Term.value]
      rw [m1, m2, m3, m4]
      simp [List.append_assoc, Term.noSalt, Term.value]
    | false =>
      rw [hw] at m4
      simp only [Option.elim_none, Bool.false_eq_true, if_false] at m4
      subst m4
      rw [← hsp hw] at m1 m3
      show C.hmac _ (Term.value key pt (Conv.setup cv)) = _
      unfold Conv.setup
      rw [hw]
      simp only [Bool.false_eq_true, if_false, Term.setup, Term.value]
      rw [m1, m2, m3]
      simp [List.append_assoc, Term.noSalt, Term.value]
  intro j
  induction j with
  | zero =>
    intro _
    obtain ⟨okm, h1, h2, h3⟩ := hset
    obtain ⟨a, b⟩ := hkdf64 hC.hmac_len [] okm Spec.textInfo
    constructor
    · show (Term.block _ _ 0).value key pt = _
      rw [value_block, h1, h2, a]; rfl
    · show (Term.block _ _ 1).value key pt = _
      rw [value_block, h1, h3, b]; rfl
  | succ j ih =>
    intro hj
    obtain ⟨ih, _⟩ := ih (by omega)
    obtain ⟨sec, d1, _, d3, d4⟩ := hnext j (by omega)
    have hv : (Term.epoch cv.setup (j + 1)).value key pt = C.hmac (g.E j).root sec := by
      show C.hmac ((Term.root cv.setup j).value key pt) ((C.dh (key (.ratchet j)) (C.genPub (key (.ratchet (j + 1))))).getD []) = _
      rw [ih, hr j (by omega), hr (j + 1) hj, ← (hgood (j + 1) hj).pub, d1]; rfl
    have hne : (g.E j).root ≠ [] := by
      rw [← ih]
      intro e
      have : ((Term.root cv.setup j).value key pt).length = 32 := by
        unfold Term.root; rw [value_block]; exact hkdfT_len hC.hmac_len _ _ _
      rw [e] at this; cases this
    obtain ⟨a, b⟩ := hkdf64 hC.hmac_len (g.E j).root sec Spec.ratchetInfo
    rw [if_neg hne] at a b
    constructor
    · show (Term.block _ _ 0).value key pt = _
      rw [value_block, hv, d3]; exact a.symm
    · show (Term.block _ _ 1).value key pt = _
      rw [value_block, hv, d4]; exact b.symm

/-! ## Descriptions -/

theorem describe (hC : C.Lawful) {cv : Conv} {n : Net} {g : Ghost .v3} {ids : Bool → ECPub} {hd : PkHeader}
    (hg : GInv cv ids n g) (hw : WInv cv ids hd n g) {key : KeyName → Bytes}
    (hr : ∀ j, j ≤ g.top → key (.ratchet j) = (g.E j).priv)
    (hid : ∀ b, (n.world b).identityKeyPair = ⟨C.genPub (key (.identity b)), key (.identity b)⟩)
    (hids : ∀ b, (n.world b).identityKeyPair.pub = ids b)
    (hv : ∀ j, j ≤ g.top → (Term.root cv.setup j).value key (fun _ _ => []) = (g.E j).root ∧
      (Term.chain cv.setup j 0).value key (fun _ _ => []) = (g.E j).chain) :
    Describes key cv.setup g.top cv n := by
  have hpub : ∀ j, j ≤ g.top → C.genPub (key (.ratchet j)) = (g.E j).pub := by
    intro j hj; rw [hr j hj, (hg.good j hj).pub]
  have hidp : ∀ b, C.genPub (key (.identity b)) = ids b := by
    intro b; rw [← hids b, hid b]
  refine ⟨hid, ?_, ?_, ?_, ?_⟩
  · intro i j hi hj e
    rw [hpub i hi, hpub j hj] at e
    exact hg.inj i j hi hj e
  · intro j hj; rw [hpub j hj]; exact hg.keys j hj
  · intro b hb
    rcases hw.sides b with ho | ⟨hb', hwt⟩
    rotate_left
    · exact absurd hwt.accepted (hb hwt.waits hb')
    obtain ⟨r, q1, q2, _⟩ := ho
    refine ⟨r, q1, ⟨g.e b, g.n b, hg.lo b, ?_, ?_⟩, ?_⟩
    · rw [q2.root, (hv _ (hg.lo b)).1]
    · rw [q2.sender, hpub _ (hg.lo b), hr _ (hg.lo b), value_chain (hv _ (hg.lo b)).2]
      rfl
    · intro c hc
      rw [q2.recv, List.mem_map] at hc
      obtain ⟨x, hx, rfl⟩ := hc
      obtain ⟨t, ht, he⟩ := List.mem_iff_getElem.1 (List.mem_of_mem_drop hx)
      have hep := hg.ep b t x (by rw [List.getElem?_eq_getElem ht, he])
      have hj := hg.pos_le ht
      refine ⟨2 * t + off b, x.index, x.missing, hj, ?_⟩
      have hm : ∀ m, entryOf (x.ep.at m) =
          { index := some m, cipherKey := some ((Term.cipherKey cv.setup (2 * t + off b) m).value key fun _ _ => []),
            macKey := some ((Term.macKey cv.setup (2 * t + off b) m).value key fun _ _ => []),
            iv := some (((Term.iv cv.setup (2 * t + off b) m).value key fun _ _ => []).take 16) } := by
        intro m
        obtain ⟨a1, a2, a3⟩ := value_message hC (value_chain (hv _ hj).2 m)
        rw [a1, a2, a3]
        unfold entryOf
        rw [getMessageKeys_v3 hC.hmac_len _ rfl, hep]
        rfl
      unfold Recv.chain
      rw [hpub _ hj, value_chain (hv _ hj).2, hep]
      simp only [hep] at hm
      simp only [hm]
      rfl
  · intro b i c pt hi
    obtain ⟨t, k, h1, h2, h3, h4⟩ := hg.msg b i c pt hi
    have hlo := hg.lo b
    have hj : 2 * t + off (!b) ≤ g.top := by omega
    obtain ⟨a1, a2, a3⟩ := value_message hC (value_chain (hv _ hj).2 k)
    refine ⟨2 * t + off (!b), k, ⟨hj, c, pt, hi, ?_⟩, ?_, ?_⟩
    · unfold header; rw [h4.key, h4.counter, hpub _ hj]
    · rw [hidp, hidp, a2]; exact h4.mac
    · rw [a1, a3]; exact h4.body


/-! ## Stolen states -/

omit C in
/-- Without the setup, a root key that can be computed comes from a leaked one at or before it. -/
theorem root_from {l : Leak} {P : Prop} (hP : ¬ P) : ∀ {j : Nat}, l.root P j → ∃ j' ≤ j, l.roots j'
  | 0, h => ⟨0, Nat.le_refl _, h.resolve_right hP⟩
  | j + 1, h => by
    rcases h with h | h
    · exact ⟨j + 1, Nat.le_refl _, h⟩
    · obtain ⟨j', h1, h2⟩ := root_from hP h.1
      exact ⟨j', by omega, h2⟩

omit C in
/-- A chain that can be computed from the start comes from a leaked root key before it. -/
theorem opens_from {l : Leak} {P : Prop} (hP : ¬ P) {j : Nat} (h : l.opens P j) : ∃ j' < j, l.roots j' := by
  cases j with
  | zero => exact absurd h hP
  | succ j =>
    obtain ⟨j', h1, h2⟩ := root_from hP h.1
    exact ⟨j', by omega, h2⟩

omit C in
/-- When no ratchet key after number `m` has leaked, no root key after number `m + 1` can be computed. -/
theorem root_bound {l : Leak} {P : Prop} {m : Nat} (hr : ∀ j, l.roots j → j ≤ m + 1) (hk : ∀ j, l.keys (.ratchet j) → j ≤ m) :
    ∀ {j : Nat}, l.root P j → j ≤ m + 1
  | 0, _ => Nat.zero_le _
  | j + 1, h => by
    rcases h with h | ⟨_, h | h⟩
    · exact hr _ h
    · rcases h with h | ⟨k, h⟩
      · have := hk _ h; omega
      · cases h
    · rcases h with h | ⟨k, h⟩
      · have := hk _ h; omega
      · cases h

omit C in
theorem opens_bound {l : Leak} {P : Prop} {m : Nat} (hk : ∀ j, l.keys (.ratchet j) → j ≤ m) {j : Nat} (h : l.opens P j) : j ≤ m + 1 := by
  cases j with
  | zero => exact Nat.zero_le _
  | succ j =>
    rcases h.2 with h | h <;> rcases h with h | ⟨k, h⟩
    · have := hk _ h; omega
    · cases h
    · have := hk _ h; omega
    · cases h

variable {cv : Conv} {n : Net} {g : Ghost .v3} {ids : Bool → ECPub} {hd : PkHeader} {key : KeyName → Bytes}
  {S : Bool → Prop} {extra : KeyName → Prop} {texts : Bool → Nat → Prop}

theorem labelled_iff (hg : GInv cv ids n g) (hpub : ∀ j, j ≤ g.top → C.genPub (key (.ratchet j)) = (g.E j).pub) {c : ChainS} {i j : Nat}
    (hi : i ≤ g.top) (hc : c.senderRatchetKey = some (5 :: (g.E i).pub)) : Labelled key g.top c j ↔ j = i := by
  constructor
  · rintro ⟨h1, h2⟩
    rw [hc, hpub j h1] at h2
    simp only [Option.some.injEq, List.cons.injEq, true_and] at h2
    exact (hg.inj _ _ hi h1 h2).symm
  · rintro rfl
    exact ⟨hi, by rw [hc, hpub _ hi]⟩

/-- What the states of open sides give away. -/
structure Spilt (g : Ghost .v3) (S : Bool → Prop) (extra : KeyName → Prop) (l : Leak) : Prop where
  keys : ∀ x, l.keys x ↔ extra x ∨ ∃ b, S b ∧ x = .ratchet (g.e b)
  roots : ∀ j, l.roots j ↔ ∃ b, S b ∧ j = g.e b
  chains : ∀ j k, l.chains j k ↔ ∃ b, S b ∧ ((j = g.e b ∧ k = g.n b) ∨
    ∃ t r, (g.full b)[t]? = some r ∧ (g.full b).length - 5 ≤ t ∧ j = 2 * t + off b ∧ k = r.index)
  messages : ∀ j k, l.messages j k ↔ ∃ b, S b ∧
    ∃ t r, (g.full b)[t]? = some r ∧ (g.full b).length - 5 ≤ t ∧ j = 2 * t + off b ∧ k ∈ r.missing

omit C in
theorem mem_last5 {α : Type} {l : List α} {a : α} : a ∈ last5 l ↔ ∃ t, l[t]? = some a ∧ l.length - 5 ≤ t := by
  unfold last5
  constructor
  · intro h
    obtain ⟨t, ht, rfl⟩ := List.mem_iff_getElem.1 h
    rw [List.length_drop] at ht
    refine ⟨l.length - 5 + t, ?_, by omega⟩
    rw [List.getElem_drop, List.getElem?_eq_getElem (by omega)]
  · rintro ⟨t, h1, h2⟩
    apply List.mem_of_getElem? (i := t - (l.length - 5))
    rw [List.getElem?_drop, show l.length - 5 + (t - (l.length - 5)) = t by omega, h1]

theorem spilt (hg : GInv cv ids n g) (hw : WInv cv ids hd n g)
    (hpub : ∀ j, j ≤ g.top → C.genPub (key (.ratchet j)) = (g.E j).pub)
    (hS : ∀ b, S b → cv.waits = true → b = false → n.accepted false ≠ []) :
    Spilt g S extra (theft key g.top cv n S extra texts) := by
  have hopen : ∀ b, S b → ∃ r, (n.world b).sessions (cv.addr b) = some r ∧ r.sessionState.senderChain = some (sendChain (g.E (g.e b)) (g.n b)) ∧
      r.sessionState.receiverChains = (last5 (g.full b)).map Recv.chain := by
    intro b hb
    rcases hw.sides b with ho | ⟨hb', hwt⟩
    · obtain ⟨r, q1, q2, _⟩ := ho
      exact ⟨r, q1, q2.sender, q2.recv⟩
    · exact absurd hwt.accepted (hS b hb hwt.waits hb')
  have hsl : ∀ b j, Labelled key g.top (sendChain (g.E (g.e b)) (g.n b)) j ↔ j = g.e b :=
    fun b j => labelled_iff hg hpub (hg.lo b) rfl
  have hrl : ∀ b t r j, (g.full b)[t]? = some r → (Labelled key g.top r.chain j ↔ j = 2 * t + off b) := by
    intro b t r j h
    have hep := hg.ep b t r h
    refine labelled_iff hg hpub (hg.pos_le (List.getElem?_eq_some_iff.1 h).1) ?_
    rw [← hep]; rfl
  refine ⟨?_, ?_, ?_, ?_⟩
  · intro x
    refine or_congr Iff.rfl ⟨?_, ?_⟩
    · rintro ⟨b, r, c, j, h1, h2, h3, h4, rfl⟩
      obtain ⟨r', q1, q2, q3⟩ := hopen b h1
      rw [h2] at q1
      obtain rfl := Option.some.inj q1
      rw [h3] at q2
      obtain rfl := Option.some.inj q2
      exact ⟨b, h1, by rw [(hsl b j).1 h4]⟩
    · rintro ⟨b, h1, rfl⟩
      obtain ⟨r, q1, q2, q3⟩ := hopen b h1
      exact ⟨b, r, _, _, h1, q1, q2, (hsl b _).2 rfl, rfl⟩
  · intro j
    constructor
    · rintro ⟨b, r, c, h1, h2, h3, h4⟩
      obtain ⟨r', q1, q2, q3⟩ := hopen b h1
      rw [h2] at q1
      obtain rfl := Option.some.inj q1
      rw [h3] at q2
      obtain rfl := Option.some.inj q2
      exact ⟨b, h1, (hsl b j).1 h4⟩
    · rintro ⟨b, h1, rfl⟩
      obtain ⟨r, q1, q2, q3⟩ := hopen b h1
      exact ⟨b, r, _, h1, q1, q2, (hsl b _).2 rfl⟩
  · intro j k
    constructor
    · rintro ⟨b, r, c, h1, h2, h3, h4, h5⟩
      obtain ⟨r', q1, q2, q3⟩ := hopen b h1
      rw [h2] at q1
      obtain rfl := Option.some.inj q1
      refine ⟨b, h1, ?_⟩
      rcases h3 with h3 | h3
      · rw [h3] at q2
        obtain rfl := Option.some.inj q2
        exact Or.inl ⟨(hsl b j).1 h4, h5.symm⟩
      · rw [q3, List.mem_map] at h3
        obtain ⟨x, hx, rfl⟩ := h3
        obtain ⟨t, ht, ht'⟩ := mem_last5.1 hx
        exact Or.inr ⟨t, x, ht, ht', (hrl b t x j ht).1 h4, h5.symm⟩
    · rintro ⟨b, h1, ⟨rfl, rfl⟩ | ⟨t, r, h2, h3, rfl, rfl⟩⟩
      · obtain ⟨r, q1, q2, q3⟩ := hopen b h1
        exact ⟨b, r, _, h1, q1, Or.inl q2, (hsl b _).2 rfl, rfl⟩
      · obtain ⟨r', q1, q2, q3⟩ := hopen b h1
        refine ⟨b, r', r.chain, h1, q1, Or.inr ?_, (hrl b t r _ h2).2 rfl, rfl⟩
        rw [q3]
        exact List.mem_map.2 ⟨r, mem_last5.2 ⟨t, h2, h3⟩, rfl⟩
  · intro j k
    have hst : ∀ r : Recv .v3, Spec.storedCounters r.chain = r.missing := by
      intro r
      unfold Spec.storedCounters Recv.chain
      simp only [List.map_map]
      exact (List.map_congr_left fun a _ => entry_index _ _).trans (List.map_id' _)
    constructor
    · rintro ⟨b, r, c, h1, h2, h3, h4, h5⟩
      obtain ⟨r', q1, q2, q3⟩ := hopen b h1
      rw [h2] at q1
      obtain rfl := Option.some.inj q1
      refine ⟨b, h1, ?_⟩
      rw [q3, List.mem_map] at h3
      obtain ⟨x, hx, rfl⟩ := h3
      obtain ⟨t, ht, ht'⟩ := mem_last5.1 hx
      rw [hst] at h5
      exact ⟨t, x, ht, ht', (hrl b t x j ht).1 h4, h5⟩
    · rintro ⟨b, h1, t, r, h2, h3, rfl, h5⟩
      obtain ⟨r', q1, q2, q3⟩ := hopen b h1
      refine ⟨b, r', r.chain, h1, q1, ?_, (hrl b t r _ h2).2 rfl, by rw [hst]; exact h5⟩
      rw [q3]
      exact List.mem_map.2 ⟨r, mem_last5.2 ⟨t, h2, h3⟩, rfl⟩

omit C in
theorem off_parity {t t' : Nat} {b b' : Bool} (h : 2 * t + off b = 2 * t' + off b') : t = t' ∧ b = b' := by
  cases b <;> cases b' <;> simp only [off] at h <;> first
    | exact ⟨by omega, rfl⟩
    | omega

/-- Which messages stolen states can read. -/
theorem spilt_reads (hg : GInv cv ids n g) {l : Leak} (hl : Spilt g S extra l) {P : Prop} (hP : ¬ P) {b : Bool} {i : Nat} {c : Ciphertext}
    {pt : Bytes} (hi : (n.sent (!b))[i]? = some (c, pt)) {t k : Nat}
    (ht : 2 * t + off b ≤ g.e (!b)) (hk : 2 * t + off b = g.e (!b) → k < g.n (!b))
    (hh : header c = ((g.E (2 * t + off b)).pub, k)) :
    l.reads P (2 * t + off b) k ↔ S b ∧ i ∉ n.accepted b ∧
      ((header c).1 ∈ seenKeys (cv.start b) (n.log b) → retained (seenKeys (cv.start b) (n.log b)) (header c).1) := by
  have hlog := hg.mem_log hi
  have hes := hg.e_succ b
  have hes' := hg.e_succ (!b)
  have hlo' := hg.lo (!b)
  have hhi := hg.hi b
  have hret : ∀ {r : Recv .v3}, (g.full b)[t]? = some r → (g.full b).length - 5 ≤ t →
      retained (seenKeys (cv.start b) (n.log b)) (header c).1 := by
    intro r h1 h2
    unfold retained
    rw [hg.seen b, List.length_map, ← List.map_drop, hh]
    refine List.mem_map.2 ⟨r, mem_last5.2 ⟨t, h1, h2⟩, ?_⟩
    rw [hg.ep b t r h1]
  have hb : ∀ b', b' ≠ b → b' = !b := by intro b' h; cases b <;> cases b' <;> simp_all
  constructor
  · rintro (h | h | ⟨k', h1, h2⟩)
    · obtain ⟨b', s1, t', r, s2, s3, s4, s5⟩ := (hl.messages _ _).1 h
      obtain ⟨rfl, rfl⟩ := off_parity s4
      refine ⟨s1, ?_, fun _ => hret s2 s3⟩
      rw [← hlog, hh, ← hg.ep b t r s2]
      exact ((hg.missing b r (List.mem_of_getElem? s2) k).1 s5).2
    · obtain ⟨j', s1, s2⟩ := opens_from hP h
      obtain ⟨b', s3, rfl⟩ := (hl.roots _).1 s2
      obtain rfl : b' = b := by
        by_cases e : b' = b
        · exact e
        · rw [hb b' e] at s1; omega
      have ht' : t = (g.full b').length := by omega
      subst ht'
      have hns := hg.not_in_seen (b := b') (by omega)
      refine ⟨s3, ?_, fun hx => ?_⟩
      · rw [← hlog, hh]
        exact fun hm => hns (mem_log_seen hm)
      · rw [hh] at hx; exact absurd hx hns
    · obtain ⟨b', s1, ⟨s2, s3⟩ | ⟨t', r, s2, s3, s4, s5⟩⟩ := (hl.chains _ _).1 h2
      · by_cases e : b' = b
        · subst e; omega
        · rw [hb b' e] at s2 s3
          have := hk s2
          omega
      · obtain ⟨rfl, rfl⟩ := off_parity s4
        refine ⟨s1, ?_, fun _ => hret s2 s3⟩
        rw [← hlog, hh, ← hg.ep b t r s2]
        intro hm
        have h3 := mem_log_lt hm
        rw [← hg.index b r (List.mem_of_getElem? s2)] at h3
        omega
  · rintro ⟨s1, s2, s3⟩
    by_cases htl : t < (g.full b).length
    · have hr := List.getElem?_eq_getElem htl
      have hs := hg.in_seen htl
      have h5 := hg.place htl (by rw [hh] at s3; exact s3 hs)
      have hm := List.mem_of_getElem? hr
      by_cases hki : k < (g.full b)[t].index
      · refine Or.inl ((hl.messages _ _).2 ⟨b, s1, t, _, hr, h5, rfl, ?_⟩)
        rw [hg.missing b _ hm]
        refine ⟨hki, ?_⟩
        rw [hg.ep b t _ hr, ← hh, hlog]
        exact s2
      · exact Or.inr (Or.inr ⟨_, by omega, (hl.chains _ _).2 ⟨b, s1, Or.inr ⟨t, _, hr, h5, rfl, rfl⟩⟩⟩)
    · obtain ht' : 2 * t + off b = g.e b + 1 := by omega
      rw [ht']
      refine Or.inr (Or.inl ⟨?_, Or.inl (Or.inl ((hl.keys _).2 (Or.inr ⟨b, s1, rfl⟩)))⟩)
      have hroot := (hl.roots (g.e b)).2 ⟨b, s1, rfl⟩
      generalize g.e b = x at hroot
      cases x <;> exact Or.inl hroot

end
end Axolotl
