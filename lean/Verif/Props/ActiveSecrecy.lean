import Verif.Spec.RecordTheft
import Verif.Props.FirstUse

/-! # C98: secrecy of a conversation with an attacker on the network -/

namespace Axolotl
section
variable [C : Crypto]
open Spec (Net Conv Start ASteps Attack First FSteps header Term KeyName Leak Derives seenKeys retained Placed Describes Begins theft Named
  spkName Chainless Leftover LeftHas LeftSpells recordTheft)

theorem asteps_along (hC : C.Lawful) {cv : Conv} {n m : Net} (h : ASteps cv n m) : Along cv n m := by
  intro hd keys0 g0 ids kp hkp hc hid
  obtain ⟨h1, h2⟩ := asteps_from hC (fun b => by rw [hid, hkp]) hc h
  exact ⟨h1, fun b => by rw [(h2 b).pair]; exact hid b⟩

/-- **C98, forward secrecy.** As `C89_forward`, when an attacker has interfered with the conversation before they steal the states. -/
theorem C98_forward (hC : C.Lawful) {cv : Conv} {n0 n : Net} (h0 : Start cv n0) (h : ASteps cv n0 n) :
    ∃ (key : KeyName → Bytes) (top spkId : Nat), Begins key cv n0 ∧ Named key top spkId cv n ∧
      ∀ (S : Bool → Prop) (extra : KeyName → Prop) (texts : Bool → Nat → Prop),
        (∀ b, S b → n.joined cv b) → (∀ b, ¬ extra (.base b)) → ¬ extra .oneTime →
        ∀ (b : Bool) (i : Nat) (c : Ciphertext) (pt : Bytes), (n.sent (!b))[i]? = some (c, pt) → ¬ texts (!b) i →
          (Derives ((theft key top cv n S extra texts).Has cv.setup (Placed key top n)) (.text (!b) i) ↔
            S b ∧ i ∉ n.accepted b ∧
              ((header c).1 ∈ seenKeys (cv.start b) (n.log b) → retained (seenKeys (cv.start b) (n.log b)) (header c).1)) := by
  obtain ⟨key, ids, hd, g, h1, h2, _, hg, hw, hpub⟩ := names_ghost hC h0 h
  exact ⟨key, g.top, hd.signedPreKeyId, h1, h2, forward_core hg hw hpub⟩

/-- **C98, healing.** As `C89_healing`: the attacker may interfere before and after the theft, as in C86 (they do not forge with what
they have stolen). -/
theorem C98_healing (hC : C.Lawful) {cv : Conv} {n0 n1 n2 : Net} (h0 : Start cv n0) (h1 : ASteps cv n0 n1) (h2 : ASteps cv n1 n2) :
    ∃ (key : KeyName → Bytes) (top1 top2 : Nat), Begins key cv n0 ∧ Describes key cv.setup top1 cv n1 ∧
      Describes key cv.setup top2 cv n2 ∧ top1 ≤ top2 ∧
      (∀ j, top1 < j → j ≤ top2 → C.genPub (key (.ratchet j)) ∉ n1.keys) ∧
      ∀ (S : Bool → Prop) (extra : KeyName → Prop) (texts : Bool → Nat → Prop), (∀ j, extra (.ratchet j) → j ≤ top1) →
        ∀ (b : Bool) (i j k : Nat), Placed key top2 n2 b i j k → top1 + 2 ≤ j → ¬ texts b i →
          ¬ Derives ((theft key top1 cv n1 S extra texts).Has cv.setup (Placed key top2 n2)) (.text b i) :=
  along_healing hC h0 (asteps_along hC h1) (asteps_along hC h2)

/-- **C98, healing, seen from a side.** As `C89_healed`. -/
theorem C98_healed (hC : C.Lawful) {cv : Conv} {n0 n1 n2 : Net} (h0 : Start cv n0) (h1 : ASteps cv n0 n1) (h2 : ASteps cv n1 n2)
    {b : Bool} {x : ECPub} (hx : x ∈ seenKeys (cv.start b) (n2.log b)) (hnew : x ∉ n1.keys) {pt : Bytes} {c : Ciphertext}
    (hok : n2.joined cv b) (hpt : pt.length < 2 ^ 62)
    (hc : (SessionCipher.encrypt (n2.world b) (cv.addr b) pt).result = .ok c) :
    let n3 : Net := { n2 with
      world := upd n2.world b ((SessionCipher.encrypt (n2.world b) (cv.addr b) pt).final (n2.world b)),
      sent := upd n2.sent b (n2.sent b ++ [(c, pt)]) }
    ∃ (key : KeyName → Bytes) (top1 top3 : Nat), Begins key cv n0 ∧ Describes key cv.setup top1 cv n1 ∧
      Describes key cv.setup top3 cv n3 ∧
      ∀ (S : Bool → Prop) (extra : KeyName → Prop) (texts : Bool → Nat → Prop), (∀ j, extra (.ratchet j) → j ≤ top1) →
        ¬ texts b (n2.sent b).length →
        ¬ Derives ((theft key top1 cv n1 S extra texts).Has cv.setup (Placed key top3 n3)) (.text b (n2.sent b).length) :=
  along_healed hC h0 (asteps_along hC h1) (asteps_along hC h2) hx hnew hok hpt hc

/-! ## The one-time prekey -/

theorem first_setup (hC : C.Lawful) {ids : Bool → ECPub} {cv : Conv} {n : Net} {hd : PkHeader} {g : Ghost .v3} (hw : WInv cv ids hd n g)
    (q : Waiting cv ids hd n g) {type : Nat} {bytes : Bytes} (ha : Attack cv n false type bytes) {seed : Bytes} {seeds : Nat → Bytes} {pt : Bytes}
    (hok : (Spec.receive (n.world false) (cv.addr false) type bytes seed seeds).result = .ok pt) :
    ∃ m, Spec.receive (n.world false) (cv.addr false) type bytes seed seeds =
        SessionCipher.decryptPkmsg (n.world false) (cv.addr false) m seed seeds ∧
      ¬ Spec.alreadyKnown (n.world false) (cv.addr false) m ∧ m.preKeyId = cv.preKeyId := by
  have hnj : ¬ n.joined cv false := fun hj => hj q.waits rfl q.accepted
  have hload : ∀ r, (n.world false).sessions (cv.addr false) = some r →
      (n.world false).loadSession (cv.addr false) = { r with fresh := false } := by
    intro r hr
    unfold World.loadSession
    rw [hr]
  have hno : ∀ {m : WhisperMessage} {r : SessionRecord} {x : Bytes × SessionRecord}, Spec.Unforged cv n false m →
      (n.world false).sessions (cv.addr false) = some r →
      SessionCipher.decryptWithSessionRecord { r with fresh := false } m seed seeds = .ok x → False := by
    intro m r x hu hr hdec
    rcases dwsr_ok (pt := x.1) (r' := x.2) hdec with ⟨s, e1, _⟩ | ⟨_, k, p, s, e1, e2, _, _⟩
    · exact rejected hC (hu.before r hnj hr) e1
    · exact rejected hC (hu.previous r hr p (List.mem_of_getElem? e1)) e2
  unfold Spec.receive at hok ⊢
  unfold Attack at ha
  by_cases ht : type = 3
  · rw [if_pos ht] at ha hok ⊢
    cases hp : PreKeyWhisperMessage.parse bytes with
    | error e => rw [hp] at hok; cases hok
    | ok m =>
      rw [hp] at hok
      simp only at hok
      have hu := ha m hp
      refine ⟨m, rfl, ?_⟩
      rcases decryptPkmsg_cases (n.world false) (cv.addr false) m seed seeds with
        ⟨_, h'⟩ | ⟨htr, ⟨e, _, h'⟩ | ⟨r1, u, e, _, _, h'⟩ | ⟨r1, u, pt', r2, hv, hdec, h'⟩⟩
      · rw [h'] at hok; cases hok
      · rw [h'] at hok; cases hok
      · rw [h'] at hok; cases hok
      · cases hkn : ((n.world false).loadSession (cv.addr false)).hasSessionState m.version (Curve.serializePoint m.baseKey) with
        | true =>
          rcases processV3_ok hv with ⟨_, hx⟩ | ⟨hx, _⟩
          · obtain ⟨rfl, rfl⟩ := Prod.mk.inj hx
            obtain ⟨r, hr, _⟩ := (loaded_known _ _ m).1 hkn
            rw [hload r hr] at hdec
            exact (hno hu.inner hr hdec).elim
          · rw [hkn] at hx; cases hx
        | false =>
          obtain ⟨s, hsu, rfl⟩ := setUp_of_process hC hkn hv
          have hnk : ¬ Spec.alreadyKnown (n.world false) (cv.addr false) m := by
            intro hx
            rw [(loaded_known _ _ m).2 hx] at hkn
            cases hkn
          refine ⟨hnk, ?_⟩
          rcases dwsr_ok hdec with ⟨s2, e1, rfl⟩ | ⟨_, k, p, s2, e1, e2, _, rfl⟩
          · obtain ⟨i, p, pt2, x1, x2, x3, x4, x5, x6⟩ :=
              hu.setup htr hnk s hsu (verifies_of_dwss hC (fun _ => setUp_version hsu) e1)
            rcases hw.wire _ _ _ _ x1 with ⟨m0, hm0, _⟩ | ⟨_, _, m0, p0, p', hp0, hann⟩
            · cases hm0
            · obtain rfl : p = p0 := Ciphertext.preKey.inj hp0
              obtain ⟨y1, _⟩ := hann.sent
              obtain ⟨_, _, _, _, k1, k2, _⟩ := q.keys
              rw [← x3, y1, k1, k2]
          · exfalso
            obtain ⟨r, hr, hget⟩ := archived_get e1
            cases k with
            | succ k => exact rejected hC (hu.inner.previous r hr p (List.mem_of_getElem? hget)) e2
            | zero =>
              obtain rfl : r.sessionState = p := Option.some.inj hget
              exact rejected hC (hu.inner.before r hnj hr) e2
  · exfalso
    rw [if_neg ht] at ha hok
    cases hp : WhisperMessage.parse bytes with
    | error e => rw [hp] at hok; cases hok
    | ok m =>
      rw [hp] at hok
      simp only at hok
      unfold SessionCipher.decryptMsg at hok
      cases hr : (n.world false).sessions (cv.addr false) with
      | none =>
        have hc : (n.world false).containsSession (cv.addr false) = false := by unfold World.containsSession; rw [hr]; rfl
        rw [hc] at hok
        cases hok
      | some r =>
        have hc : (n.world false).containsSession (cv.addr false) = true := by unfold World.containsSession; rw [hr]; rfl
        rw [hc, hload r hr] at hok
        simp only [Bool.not_true, Bool.false_eq_true, if_false] at hok
        cases hd : SessionCipher.decryptWithSessionRecord { r with fresh := false } m seed seeds with
        | error e => rw [hd] at hok; cases hok
        | ok x => exact hno (ha m hp) hr hd

/-- **C98, the one-time prekey.** Once side `false` has accepted a message of a conversation that began with a bundle, the one-time
prekey of the setup is no longer in its store, unless its id is the last-resort id; whatever the attacker has delivered. -/
theorem C98_prekey_gone (hC : C.Lawful) {cv : Conv} {n0 n : Net} (h0 : Start cv n0) (h : ASteps cv n0 n) (hacc : n.accepted false ≠ [])
    {i : Nat} (hi : cv.preKeyId = some i) (hmax : i ≠ 0xFFFFFF) : (n.world false).preKeys i = none := by
  have hwt : cv.waits = true := by
    cases h0 with
    | bundle => rfl
    | exchange => cases hi
  induction h with
  | refl =>
    exfalso
    cases h0 with
    | bundle => exact hacc rfl
    | exchange => cases hi
  | @step m m' hm hs ih =>
    obtain ⟨key, ids, hd, g, h1, h2, h3, hg, hw, hpub⟩ := names_ghost hC h0 hm
    by_cases hmacc : m.accepted false = []
    · have q := hw.waiting hwt hmacc
      have hkey : ∀ {w' : World}, w'.preKeys i = none → (upd m.world false w' false).preKeys i = none := by
        intro w' h; rw [upd_same]; exact h
      have hgone : ∀ {p : PreKeyWhisperMessage} {seed : Bytes} {seeds : Nat → Bytes} {pt : Bytes},
          (SessionCipher.decryptPkmsg (m.world false) (cv.addr false) p seed seeds).result = .ok pt →
          ¬ Spec.alreadyKnown (m.world false) (cv.addr false) p → p.preKeyId = some i →
          ((SessionCipher.decryptPkmsg (m.world false) (cv.addr false) p seed seeds).final (m.world false)).preKeys i = none := by
        intro p seed seeds pt hok hnew hid
        rcases C27_only_the_named (m.world false) (cv.addr false) p seed seeds i with ⟨h, _⟩ | ⟨_, h⟩
        · exact h
        · exact absurd ⟨⟨_, hok⟩, hnew, hid, hmax⟩ h
      cases hs with
      | honest hs => exact honest_gone hC hg hw hwt hmacc hs hacc hi hmax
      | @attack b type bytes seed seeds acc ha s1 s2 f1 f2 hr =>
        cases b with
        | true =>
          refine absurd ?_ hacc
          show upd m.accepted true acc false = []
          rw [upd_other _ _ (by simp)]
          exact hmacc
        | false =>
          cases ho : (Spec.receive (m.world false) (cv.addr false) type bytes seed seeds).result with
          | error e =>
            rw [ho] at hr
            cases hr
            refine absurd ?_ hacc
            show upd m.accepted false (m.accepted false) false = []
            rw [upd_same]
            exact hmacc
          | ok pt =>
            obtain ⟨p, e1, e2, e3⟩ := first_setup hC hw q ha ho
            rw [e1] at ho
            refine hkey ?_
            rw [e1]
            exact hgone ho e2 (e3.trans hi)
    · have hkp := (asteps_from hC (n := m) (m := m') h3 ⟨⟨g, hg, hw, .refl m.keys g⟩, fun _ h => h⟩ (ASteps.refl.step hs)).2 false
      rcases hkp.preKeys i with e | e
      · exact e
      · rw [e]; exact ih hmacc

/-! ## Archived states -/

omit C in
theorem derives_cut {K K' : Term → Prop} (h : ∀ t, K t → Derives K' t) {t : Term} (ht : Derives K t) : Derives K' t := by
  induction ht with
  | has hk => exact h _ hk
  | bytes b => exact .bytes b
  | pub x => exact .pub x
  | own k => exact .own k
  | agree _ ih => exact .agree ih
  | agree' _ ih => exact .agree' ih
  | join _ _ ih1 ih2 => exact .join ih1 ih2
  | fst _ ih => exact .fst ih
  | snd _ ih => exact .snd ih
  | hmac _ _ ih1 ih2 => exact .hmac ih1 ih2
  | enc _ _ _ ih1 ih2 ih3 => exact .enc ih1 ih2 ih3
  | dec _ _ ih1 ih2 => exact .dec ih1 ih2

omit C in
theorem derives_expand {K : Term → Prop} {info : Bytes} {prk : Term} (h : Derives K prk) (p : Nat) : Derives K (Term.block info prk p) := by
  induction p with
  | zero => exact .hmac h (.join (.bytes _) (.bytes _))
  | succ p ih => exact .hmac h (.join ih (.join (.bytes _) (.bytes _)))

omit C in
/-- Who has the signed prekey has all secrets of the states that were set up with it. -/
theorem left_derives {K : Term → Prop} {spkId : Nat} {cv : Conv} {b : Bool} {i : Nat} {rest : Bytes} (h : K (.priv (spkName cv spkId b i)))
    {t : Term} (ht : LeftHas spkId cv b i rest t) : Derives K t := by
  have hp : Derives K (.hmac .noSalt (.join (.bytes (List.replicate 32 0xFF))
      (.join (.agree (.identity !b) (spkName cv spkId b i)) (.bytes rest)))) :=
    .hmac (.bytes _) (.join (.bytes _) (.join (.agree' (.has h)) (.bytes _)))
  cases ht with
  | ratchet => exact .has h
  | root => exact derives_expand hp 0
  | chain => exact derives_expand hp 1

/-- **C98, archived states.** In a first conversation every archived state has no chain, or its secrets are `LeftHas`: they come from
a signed prekey of ours and the peer's identity key, and have nothing to do with the conversation. -/
theorem C98_archived (hC : C.Lawful) {cv : Conv} {n0 n : Net} (h0 : Start cv n0) (hf : First cv n0) (h : ASteps cv n0 n) {key : KeyName → Bytes}
    {top spkId : Nat} (hn : Named key top spkId cv n) {b : Bool} {r : SessionRecord} (hr : (n.world b).sessions (cv.addr b) = some r)
    {s : SessionState} (hs : s ∈ r.previousStates) : Chainless s ∨ ∃ i rest, LeftSpells key spkId cv b i rest s := by
  rcases (C97_records hC h0 hf h b).2.2 r hr s hs with hx | hx
  · exact Or.inl hx
  refine Or.inr ?_
  obtain ⟨_, _, _, _, hgood, _, _⟩ := craft_moment hC h0 h
  have hkid : ∀ b, (key (.identity b)).length = 32 := by
    intro b
    have := (hgood b).priv
    rw [hn.describes.identity b] at this
    exact this
  obtain ⟨pks, m, hid, ⟨signed, spk, otk, okm, lr, h1, h2, h3, h4, ⟨d1, d2, d3, d4, e1, e2, e3, e4, rfl⟩, h6, rfl⟩, _⟩ := hx
  have hspk := hn.signed b _ _ _ h1 h2
  have hl := (hC.dh_size _ _ _ e1).1
  rw [hn.describes.identity] at hid
  rw [hid, hspk] at e1
  rw [hspk] at hl
  have e1' : C.dh (key (.identity !b)) (C.genPub (key (spkName cv spkId b m.signedPreKeyId))) = some d1 := by
    obtain ⟨s, g1, g2⟩ := hC.dh_comm _ _ hl (hkid (!b))
    rw [e1] at g1
    rw [g2, ← g1]
  have hkdf := hkdf64 hC.hmac_len [] (List.replicate 32 0xFF ++ d1 ++ d2 ++ d3 ++ d4) Spec.textInfo
  refine ⟨m.signedPreKeyId, d2 ++ d3 ++ d4, ?_, ⟨5 :: spk.pub, ?_⟩, rfl, rfl⟩
  · show some _ = some _
    unfold Term.otherRoot
    rw [value_block, hkdf.1]
    simp only [Term.value, Term.noSalt]
    rw [e1']
    simp [List.append_assoc]
  · have hc : (Term.otherChain (.agree (.identity !b) (spkName cv spkId b m.signedPreKeyId)) (d2 ++ d3 ++ d4)).value key (fun _ _ => []) =
        (Spec.hkdf [] (List.replicate 32 0xFF ++ d1 ++ d2 ++ d3 ++ d4) Spec.textInfo 64).drop 32 := by
      unfold Term.otherChain
      rw [value_block, hkdf.2]
      simp only [Term.value, Term.noSalt]
      rw [e1']
      simp [List.append_assoc]
    rw [hc, ← hspk]
    rfl

/-- **C98, forward secrecy for whole records.** A thief who takes the states that were left behind too (in a first conversation there
are no others, by `C98_archived`), and all private keys but the base keys and the one-time prekey, reads no more. -/
theorem C98_record (hC : C.Lawful) {cv : Conv} {n0 n : Net} (h0 : Start cv n0) (h : ASteps cv n0 n) :
    ∃ (key : KeyName → Bytes) (top spkId : Nat), Begins key cv n0 ∧ Named key top spkId cv n ∧
      ∀ (S : Bool → Prop) (extra : KeyName → Prop) (texts : Bool → Nat → Prop),
        (∀ b, S b → n.joined cv b) → (∀ b, ¬ extra (.base b)) → ¬ extra .oneTime →
        ∀ (b : Bool) (i : Nat) (c : Ciphertext) (pt : Bytes), (n.sent (!b))[i]? = some (c, pt) → ¬ texts (!b) i →
          (Derives (recordTheft key top spkId cv n S extra texts) (.text (!b) i) ↔
            S b ∧ i ∉ n.accepted b ∧
              ((header c).1 ∈ seenKeys (cv.start b) (n.log b) → retained (seenKeys (cv.start b) (n.log b)) (header c).1)) := by
  obtain ⟨key, top, spkId, h1, h2, h3⟩ := C98_forward hC h0 h
  refine ⟨key, top, spkId, h1, h2, ?_⟩
  intro S extra texts hS hbase hone b i c pt hi ht
  have hne : ∀ b i, (∀ a, spkName cv spkId b i ≠ .base a) ∧ spkName cv spkId b i ≠ .oneTime := by
    intro b i
    unfold spkName
    split
    · exact ⟨fun a => by simp, by simp⟩
    · exact ⟨fun a => by simp, by simp⟩
  constructor
  · intro hd
    refine (h3 S (fun x => extra x ∨ ∃ b i, x = spkName cv spkId b i) texts hS ?_ ?_ b i c pt hi ht).1 (derives_cut ?_ hd)
    · rintro a (hx | ⟨b, i, hx⟩)
      · exact hbase a hx
      · exact (hne b i).1 a hx.symm
    · rintro (hx | ⟨b, i, hx⟩)
      · exact hone hx
      · exact (hne b i).2 hx.symm
    · rintro t (hx | ⟨b, r, s, i, rest, _, _, _, _, hx⟩)
      · refine .has ?_
        cases hx with
        | key hx => exact .key (hx.imp Or.inl id)
        | root hx => exact .root hx
        | chain hx => exact .chain hx
        | cipherKey hx => exact .cipherKey hx
        | macKey hx => exact .macKey hx
        | iv hx => exact .iv hx
        | text hx => exact .text hx
        | wire hx => exact .wire hx
      · exact left_derives (.key (Or.inl (Or.inr ⟨b, i, rfl⟩))) hx
  · intro hd
    exact derives_cut (fun t hx => .has (Or.inl hx)) ((h3 S extra texts hS hbase hone b i c pt hi ht).2 hd)

/-- **C98, in one statement** for first conversations with an attacker who computes (C97): the archived states are as said, and who
steals whole records with all keys that are kept reads exactly what the stolen sides could still decrypt. -/
theorem C98_first (hC : C.Lawful) {cv : Conv} {n0 n : Net} (h0 : Start cv n0) (hf : First cv n0) (h : FSteps cv n0 n) :
    ∃ (key : KeyName → Bytes) (top spkId : Nat), Begins key cv n0 ∧ Named key top spkId cv n ∧
      (∀ b r, (n.world b).sessions (cv.addr b) = some r → ∀ s ∈ r.previousStates, Chainless s ∨ ∃ i rest, LeftSpells key spkId cv b i rest s) ∧
      ∀ (S : Bool → Prop) (extra : KeyName → Prop) (texts : Bool → Nat → Prop),
        (∀ b, S b → n.joined cv b) → (∀ b, ¬ extra (.base b)) → ¬ extra .oneTime →
        ∀ (b : Bool) (i : Nat) (c : Ciphertext) (pt : Bytes), (n.sent (!b))[i]? = some (c, pt) → ¬ texts (!b) i →
          (Derives (recordTheft key top spkId cv n S extra texts) (.text (!b) i) ↔
            S b ∧ i ∉ n.accepted b ∧
              ((header c).1 ∈ seenKeys (cv.start b) (n.log b) → retained (seenKeys (cv.start b) (n.log b)) (header c).1)) := by
  have h' := (C95_steps hC h0).1 ((C97_steps hC h0 hf).1 h)
  obtain ⟨key, top, spkId, h1, h2, h3⟩ := C98_record hC h0 h'
  exact ⟨key, top, spkId, h1, h2, fun b r hr s hs => C98_archived hC h0 hf h' h2 hr hs, h3⟩

end

/-! ## Non-vacuity: the run of C86 -/

section
attribute [local instance] toy
open Example
open Spec (Net Start ASteps FSteps Named First Derives KeyName Begins Describes Placed theft recordTheft LeftSpells seenKeys)

/-- After the run of C86 the records of both sides are stolen, with all keys that are kept: a state was left behind in Bob's record;
nothing that was accepted can be read; the one-time prekey of the setup is gone. -/
example : ∃ n, Start convCv act0 ∧ First convCv act0 ∧ FSteps convCv act0 n ∧ (n.world false).preKeys 31 = none ∧
    ∃ key top spkId, Named key top spkId convCv n ∧
      (∃ r s i rest, (n.world false).sessions aliceAddr = some r ∧ s ∈ r.previousStates ∧ LeftSpells key spkId convCv false i rest s) ∧
      ((n.sent true)[0]?.isSome ∧ (n.sent true)[1]?.isSome ∧ (n.sent false)[0]?.isSome) ∧
      let K := recordTheft key top spkId convCv n (fun _ => True) keptKeys (fun _ _ => False)
      ¬ Derives K (.text true 0) ∧ ¬ Derives K (.text true 1) ∧ ¬ Derives K (.text false 0) := by
  obtain ⟨n, hn, hc⟩ := (Option.any_eq_true _ _).1 actRun_check
  unfold actCheck at hc
  simp only [Bool.and_eq_true, beq_iff_eq] at hc
  have hl := actRun_left
  rw [hn, Option.any_some] at hl
  obtain ⟨r, hr, hl⟩ := (Option.any_eq_true _ _).1 hl
  obtain ⟨s, hs, hl⟩ := List.any_eq_true.1 hl
  have hlen : (actRun.any fun n => (n.sent true).length == 2 && (n.sent false).length == 1) = true := by decide +kernel
  rw [hn, Option.any_some, Bool.and_eq_true, beq_iff_eq, beq_iff_eq] at hlen
  have hst := actRun_steps hn
  have hfs := (C97_steps toy_lawful act_start act_first).2 ((C95_steps toy_lawful act_start).2 hst)
  refine ⟨n, act_start, act_first, hfs,
    C98_prekey_gone toy_lawful act_start hst (by rw [hc.1.1.1]; simp) rfl (by decide), ?_⟩
  obtain ⟨key, top, spkId, _, h, harch, hread⟩ := C98_first toy_lawful act_start act_first hfs
  have k3 := hread (fun _ => True) keptKeys (fun _ _ => False) (fun _ _ _ _ => by rw [hc.1.1.1]; simp) (fun b hb => hb.1 b rfl)
    (fun ho => ho.2 rfl)
  refine ⟨key, top, spkId, h, ?_, ?_, ?_⟩
  · rcases harch false r hr s hs with hx | ⟨i, rest, hx⟩
    · rw [hx.1] at hl; cases hl
    · exact ⟨r, s, i, rest, hr, hs, hx⟩
  · simp [hlen.1, hlen.2]
  · have hno : ∀ b i, i < (n.sent (!b)).length → i ∈ n.accepted b →
        ¬ Derives (recordTheft key top spkId convCv n (fun _ => True) keptKeys (fun _ _ => False)) (.text (!b) i) := by
      intro b i hi hacc hd
      exact ((k3 b i _ _ (List.getElem?_eq_getElem hi) id).1 hd).2.1 hacc
    refine ⟨hno false 0 ?_ ?_, hno false 1 ?_ ?_, hno true 0 ?_ ?_⟩
    · simp only [Bool.not_false]; rw [hlen.1]; decide
    · rw [hc.1.1.1]; decide
    · simp only [Bool.not_false]; rw [hlen.1]; decide
    · rw [hc.1.1.1]; decide
    · simp only [Bool.not_true]; rw [hlen.2]; decide
    · rw [hc.1.1.2]; decide

/-- The conversation goes on with the attacker there: Alice sends; the attacker delivers it with a byte changed; Bob gets it and
replies; Alice gets the reply. -/
def actHeal (n : Net) : Option Net :=
  (convSend convCv n true [97]).bind fun n =>
    (convAttack convCv n false 2 (lastByteChanged (sentInner n true 2)) (key 70) (key 71)).bind fun n =>
    (convDeliver convCv n false 2 (key 72)).bind fun n =>
    (convSend convCv n false [98]).bind fun n => convDeliver convCv n true 1 (key 73)

theorem actHeal_steps {n m : Net} (h : actHeal n = some m) : ASteps convCv n m := by
  unfold actHeal at h
  simp only [Option.bind_eq_some_iff] at h
  obtain ⟨a1, h1, a2, h2, a3, h3, a4, h4, h5⟩ := h
  exact ((((ASteps.refl.step (.honest (convSend_step h1))).step (convAttack_step toy_lawful h2)).step (.honest (convDeliver_step h3))).step
    (.honest (convSend_step h4))).step (.honest (convDeliver_step h5))

/-- After that Alice's messages are secret again, although the states of both sides and all keys had been stolen. -/
example : ∃ n1 n2 c, Start convCv act0 ∧ ASteps convCv act0 n1 ∧ ASteps convCv n1 n2 ∧
    (SessionCipher.encrypt (n2.world true) (convCv.addr true) [99]).result = .ok c ∧
    let n3 : Net := { n2 with
      world := upd n2.world true ((SessionCipher.encrypt (n2.world true) (convCv.addr true) [99]).final (n2.world true)),
      sent := upd n2.sent true (n2.sent true ++ [(c, [99])]) }
    ∃ key top1 top3, Describes key convCv.setup top1 convCv n1 ∧ Describes key convCv.setup top3 convCv n3 ∧
      ¬ Derives ((theft key top1 convCv n1 (fun _ => True) (fun x => ∀ j, x = .ratchet j → j ≤ top1) (fun _ i => i < 3)).Has convCv.setup
        (Placed key top3 n3)) (.text true 3) := by
  have h : actRun.any (fun n1 => (actHeal n1).any fun n2 =>
      decide (toy.genPub (toy.genPriv (key 72)) ∈ seenKeys (convCv.start true) (n2.log true)) &&
      decide (toy.genPub (toy.genPriv (key 72)) ∉ n1.keys) && (n2.sent true).length == 3 &&
      match (SessionCipher.encrypt (n2.world true) (convCv.addr true) [99]).result with | .ok _ => true | .error _ => false) = true := by
    decide +kernel
  obtain ⟨n1, hr, h⟩ := (Option.any_eq_true _ _).1 h
  obtain ⟨n2, hr2, h⟩ := (Option.any_eq_true _ _).1 h
  simp only [Bool.and_eq_true, beq_iff_eq, decide_eq_true_eq] at h
  obtain ⟨⟨⟨h1, h2⟩, h3⟩, h4⟩ := h
  cases hc : (SessionCipher.encrypt (n2.world true) (convCv.addr true) [99]).result with
  | error e => rw [hc] at h4; cases h4
  | ok c =>
    refine ⟨n1, n2, c, act_start, actRun_steps hr, actHeal_steps hr2, hc, ?_⟩
    obtain ⟨key, top1, top3, _, k1, k2, k3⟩ := C98_healed toy_lawful act_start (actRun_steps hr) (actHeal_steps hr2) h1 h2
      (by intro _ x; cases x) (by decide) hc
    refine ⟨key, top1, top3, k1, k2, ?_⟩
    have := k3 (fun _ => True) (fun x => ∀ j, x = .ratchet j → j ≤ top1) (fun _ i => i < 3) (fun j hj => hj j rfl) (by rw [h3]; decide)
    rw [h3] at this
    exact this

end
end Axolotl
