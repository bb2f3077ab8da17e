import Verif.Spec.System
import Verif.Props.Active

/-! Any number of conversations over shared stores: each of them goes as if it were the only one. -/

namespace Axolotl
section
variable [C : Crypto] {P : Type}
open SessionState SessionBuilder RatchetingSession
open Spec (Net Conv Step Start header AStep ASteps Attack Recorded InnerBytes Chat System Separate Builds SysStep SysReach)

/-- What receiving may do to the identity saved for the peer's name. -/
theorem receive_identity (w : World) (a : Address) (type : Nat) (bytes seed : Bytes) (seeds : Nat → Bytes) :
    let w' := (Spec.receive w a type bytes seed seeds).final w
    w'.identities a.1 = w.identities a.1 ∨
    ∃ m, type = 3 ∧ PreKeyWhisperMessage.parse bytes = .ok m ∧ w.isTrusted a.1 m.identityKey = true ∧
      w'.identities a.1 = some m.identityKey := by
  intro w'
  have hdef : w' = (Spec.receive w a type bytes seed seeds).final w := rfl
  unfold Spec.receive at hdef
  by_cases ht : type = 3
  · cases hp : PreKeyWhisperMessage.parse bytes with
    | error e => left; rw [hdef]; simp only [if_pos ht, hp]; rfl
    | ok m =>
      have hw' : w' = (SessionCipher.decryptPkmsg w a m seed seeds).final w := by rw [hdef]; simp only [if_pos ht, hp]
      rw [hw']
      rcases decryptPkmsg_cases w a m seed seeds with ⟨_, h⟩ | ⟨htr, ⟨e, _, h⟩ | ⟨r, u, e, _, _, h⟩ | ⟨r, u, pt, r', _, _, h⟩⟩
      · left; rw [h]; rfl
      · left; rw [h]; rfl
      · right
        refine ⟨m, ht, rfl, htr, ?_⟩
        rw [h]
        simp [Outcome.final, World.applyAll, World.apply, upd]
      · right
        refine ⟨m, ht, rfl, htr, ?_⟩
        rw [h]
        cases u <;> simp [Outcome.final, World.applyAll, World.apply, upd]
  · left
    cases hp : WhisperMessage.parse bytes with
    | error e => rw [hdef]; simp only [if_neg ht, hp]; rfl
    | ok m =>
      have hw' : w' = (Call.decryptMsg a m seed seeds).next w := by rw [hdef]; simp only [if_neg ht, hp]; rfl
      rw [hw']
      apply applyAll_identities
      intro k hk
      obtain ⟨_, _, _, _, h⟩ := decryptMsg_writes hk
      cases h

/-- What receiving may do to the prekeys. -/
theorem receive_preKeys (w : World) (a : Address) (type : Nat) (bytes seed : Bytes) (seeds : Nat → Bytes) (i : Nat) :
    ((Spec.receive w a type bytes seed seeds).final w).preKeys i = w.preKeys i ∨
    ∃ m, type = 3 ∧ PreKeyWhisperMessage.parse bytes = .ok m ∧ ¬ Spec.alreadyKnown w a m ∧ m.preKeyId = some i ∧ i ≠ 0xFFFFFF := by
  unfold Spec.receive
  by_cases ht : type = 3
  · rw [if_pos ht]
    cases hp : PreKeyWhisperMessage.parse bytes with
    | error e => left; rfl
    | ok m =>
      rcases C27_only_the_named w a m seed seeds i with ⟨_, _, h1, h2, h3, _⟩ | ⟨h, _⟩
      · exact Or.inr ⟨m, ht, rfl, h1, h2, h3⟩
      · exact Or.inl h
  · left
    rw [if_neg ht]
    cases hp : WhisperMessage.parse bytes with
    | error e => rfl
    | ok m => exact C27_other_calls w (.decryptMsg a m seed seeds) (by intros; intro h; cases h) i

/-- Receiving is a call, or nothing. -/
theorem receive_call (w : World) (a : Address) (type : Nat) (bytes seed : Bytes) (seeds : Nat → Bytes) :
    (∃ c : Call, c.addr = a ∧ c.next w = (Spec.receive w a type bytes seed seeds).final w) ∨
    (Spec.receive w a type bytes seed seeds).final w = w := by
  unfold Spec.receive
  by_cases ht : type = 3
  · rw [if_pos ht]
    cases hp : PreKeyWhisperMessage.parse bytes with
    | error e => right; rfl
    | ok m => exact Or.inl ⟨.decryptPkmsg a m seed seeds, rfl, rfl⟩
  · rw [if_neg ht]
    cases hp : WhisperMessage.parse bytes with
    | error e => right; rfl
    | ok m => exact Or.inl ⟨.decryptMsg a m seed seeds, rfl, rfl⟩

/-- What delivering a message of the conversation may do besides. -/
theorem deliver_besides {ids : Bool → ECPub} {cv : Conv} {n : Net} (h : ConvAt .v3 ids cv n) {b : Bool} {i : Nat} {c : Ciphertext}
    {pt : Bytes} (hi : (n.sent (!b))[i]? = some (c, pt)) (seed : Bytes) (seeds : Nat → Bytes) :
    let w' := (Spec.receive (n.world b) (cv.addr b) c.getType c.serialize seed seeds).final (n.world b)
    (w'.identities (cv.addr b).1 = (n.world b).identities (cv.addr b).1 ∨ w'.identities (cv.addr b).1 = some (ids !b)) ∧
    ∀ j, w'.preKeys j = (n.world b).preKeys j ∨ (b = false ∧ cv.preKeyId = some j ∧ j ≠ 0xFFFFFF) := by
  intro w'
  obtain ⟨hd, g, hg, hw⟩ := h
  have hwire := hw.wire _ _ _ _ hi
  rcases hwire with ⟨m, rfl, hm⟩ | ⟨hb, hwt, m, p, p', rfl, hp⟩
  · have ht : (Ciphertext.whisper m).getType ≠ 3 := by intro h; cases h
    refine ⟨?_, fun j => ?_⟩
    · rcases receive_identity (n.world b) (cv.addr b) (Ciphertext.whisper m).getType (Ciphertext.whisper m).serialize seed seeds with
        h | ⟨_, h, _⟩
      · exact Or.inl h
      · exact absurd h ht
    · rcases receive_preKeys (n.world b) (cv.addr b) (Ciphertext.whisper m).getType (Ciphertext.whisper m).serialize seed seeds j with
        h | ⟨_, h, _⟩
      · exact Or.inl h
      · exact absurd h ht
  · obtain rfl : b = false := by cases b with | false => rfl | true => cases hb
    have hparse : PreKeyWhisperMessage.parse (Ciphertext.preKey p).serialize = .ok p' := hp.parse
    refine ⟨?_, fun j => ?_⟩
    · rcases receive_identity (n.world false) (cv.addr false) (Ciphertext.preKey p).getType (Ciphertext.preKey p).serialize seed seeds
        with h | ⟨q, _, h, _, h'⟩
      · exact Or.inl h
      · rw [hparse] at h
        obtain rfl := Except.ok.inj h
        right
        rw [hp.ik] at h'
        exact h'
    · rcases receive_preKeys (n.world false) (cv.addr false) (Ciphertext.preKey p).getType (Ciphertext.preKey p).serialize seed seeds j
        with h | ⟨q, _, h, hk, hj, hne⟩
      · exact Or.inl h
      · rw [hparse] at h
        obtain rfl := Except.ok.inj h
        right
        rcases hw.sides false with ⟨r, q1, q2, q3, q4⟩ | ⟨_, q⟩
        · exfalso
          apply hk
          refine ⟨r, q1, ?_⟩
          refine ⟨r.sessionState, List.mem_cons_self .., ?_, ?_⟩
          · rw [q2.version, hp.version]; rfl
          · rw [q4 rfl hwt, hp.bk]; rfl
        · obtain ⟨_, _, otId, _, k1, k2, _⟩ := q.keys
          rw [hp.pk, k2] at hj
          obtain rfl := Option.some.inj hj
          exact ⟨rfl, k1, hne⟩

omit C in
theorem upd_self {α β : Type} [DecidableEq α] (f : α → β) (a : α) : upd f a (f a) = f := by
  funext x
  unfold upd
  split
  · rename_i e; rw [e]
  · rfl

variable [DecidableEq P]

/-- What one side of a conversation sees when its party changes its stores. -/
theorem net_upd {t : Chat P} (hd : t.party true ≠ t.party false) (world : P → World) (b : Bool) (w' : World) :
    t.net (upd world (t.party b) w') = { t.net world with world := upd (t.net world).world b w' } := by
  unfold Chat.net
  congr 1
  funext a
  by_cases hab : a = b
  · subst hab; rw [upd_same, upd_same]
  · rw [upd_other _ _ hab, upd_other]
    intro he
    apply hab
    cases a <;> cases b <;> first | rfl | exact absurd he hd | exact absurd he.symm hd

theorem net_apart {t : Chat P} (world : P → World) {p : P} (h : ∀ b, t.party b ≠ p) (w' : World) :
    t.net (upd world p w') = t.net world := by
  unfold Chat.net
  congr 1
  funext a
  rw [upd_other _ _ (h a)]

/-- A call that leaves a conversation alone. -/
def LeavesChat (world : P → World) (p : P) (w' : World) (t : Chat P) : Prop :=
  ∀ b, t.party b = p →
    w'.sessions (t.cv.addr b) = (world p).sessions (t.cv.addr b) ∧
    (w'.identities (t.cv.addr b).1 = (world p).identities (t.cv.addr b).1 ∨
      w'.identities (t.cv.addr b).1 = some (world (t.party !b)).identityKeyPair.pub) ∧
    (b = false → ∀ i, t.cv.preKeyId = some i → w'.preKeys i = (world p).preKeys i)

theorem asteps_trans {cv : Conv} {a b c : Net} (h1 : ASteps cv a b) (h2 : ASteps cv b c) : ASteps cv a c := by
  induction h2 with
  | refl => exact h1
  | step _ hs ih => exact .step ih hs

theorem seen_other {t : Chat P} (hd : t.party true ≠ t.party false) {world : P → World} {p : P} {w' : World}
    (hc : (∃ c : Call, c.next (world p) = w') ∨ w' = world p) (h : LeavesChat world p w' t) :
    ASteps t.cv (t.net world) (t.net (upd world p w')) := by
  rcases hc with ⟨c, rfl⟩ | rfl
  · by_cases hp : ∃ b, t.party b = p
    · obtain ⟨b, rfl⟩ := hp
      rw [net_upd hd]
      obtain ⟨h1, h2, h3⟩ := h b rfl
      exact .step .refl (.honest (.other (b := b) (call := c) h1 h2 h3))
    · rw [net_apart world (fun b hb => hp ⟨b, hb⟩)]
      exact .refl
  · rw [upd_self]
    exact .refl

/-- What holds of the whole at every moment; `Q` says how conversations begin. -/
structure SysInvOf (Q : (Bool → P) → Conv → Net → Prop) (s : System P) : Prop where
  distinct : ∀ t ∈ s.chats, t.party true ≠ t.party false
  apart : ∀ (j k : Nat) t u, s.chats[j]? = some t → s.chats[k]? = some u → j ≠ k → Separate s.world t u
  runs : ∀ t ∈ s.chats, ∃ n0, Q t.party t.cv n0 ∧ ASteps t.cv n0 (t.net s.world)

abbrev SysInv (s : System P) : Prop := SysInvOf (fun _ => Start) s

omit C [DecidableEq P] in
theorem Spec.Separate.world {w w' : P → World} {t u : Chat P} (h : Separate w t u)
    (hid : ∀ p, (w' p).identityKeyPair = (w p).identityKeyPair) : Separate w' t u :=
  ⟨h.addr, fun a b h1 h2 => by rw [hid, hid]; exact h.name a b h1 h2, h.preKey⟩

omit C [DecidableEq P] in
theorem Spec.Separate.symm {w : P → World} {t u : Chat P} (h : Separate w t u) : Separate w u t :=
  ⟨fun a b h1 h2 => h.addr b a h1.symm h2.symm, fun a b h1 h2 => (h.name b a h1.symm h2.symm).symm,
    fun h1 i h2 h3 h4 => h.preKey h1.symm i h4 h3 h2⟩

omit C [DecidableEq P] in
theorem Spec.Separate.like {w : P → World} {t t' u u' : Chat P} (h : Separate w t u) (ht : t'.party = t.party) (ht' : t'.cv = t.cv)
    (hu : u'.party = u.party) (hu' : u'.cv = u.cv) : Separate w t' u' := by
  refine ⟨?_, ?_, ?_⟩
  · rw [ht, ht', hu, hu']; exact h.addr
  · rw [ht, ht', hu, hu']; exact h.name
  · rw [ht, ht', hu, hu']; exact h.preKey

omit C in
theorem upd_identities {w : P → World} {p : P} {w' : World} (h : w'.identityKeyPair = (w p).identityKeyPair) (q : P) :
    (upd w p w' q).identityKeyPair = (w q).identityKeyPair := by
  unfold upd
  split
  · rename_i e; rw [e]; exact h
  · rfl

/-- One conversation moves on, the others are left alone. -/
theorem sysInv_move {Q : (Bool → P) → Conv → Net → Prop} {s : System P} (h : SysInvOf Q s) {k : Nat} {t t' : Chat P} (hk : s.chats[k]? = some t) {b : Bool} {w' : World}
    (hparty : t'.party = t.party) (hcv : t'.cv = t.cv)
    (hid : w'.identityKeyPair = (s.world (t.party b)).identityKeyPair)
    (hself : AStep t.cv (t.net s.world) (t'.net (upd s.world (t.party b) w')))
    (hc : (∃ c : Call, c.next (s.world (t.party b)) = w') ∨ w' = s.world (t.party b))
    (hothers : ∀ (j : Nat) u, s.chats[j]? = some u → j ≠ k → LeavesChat s.world (t.party b) w' u) :
    SysInvOf Q { world := upd s.world (t.party b) w', chats := s.chats.set k t' } := by
  have hidw := upd_identities (p := t.party b) hid
  have hget : ∀ (j : Nat) u', (s.chats.set k t')[j]? = some u' →
      ∃ u, s.chats[j]? = some u ∧ u'.party = u.party ∧ u'.cv = u.cv ∧ (j ≠ k → u' = u) ∧ (j = k → u' = t' ∧ u = t) := by
    intro j u' hj
    rw [List.getElem?_set] at hj
    by_cases hjk : k = j
    · subst hjk
      rw [if_pos rfl] at hj
      split at hj
      · obtain rfl := Option.some.inj hj
        exact ⟨t, hk, hparty, hcv, fun h => absurd rfl h, fun _ => ⟨rfl, rfl⟩⟩
      · cases hj
    · rw [if_neg hjk] at hj
      exact ⟨u', hj, rfl, rfl, fun _ => rfl, fun h => absurd h.symm hjk⟩
  refine ⟨?_, ?_, ?_⟩
  · intro u' hu'
    obtain ⟨j, hj⟩ := List.mem_iff_getElem?.1 hu'
    obtain ⟨u, h1, h2, _⟩ := hget j u' hj
    rw [h2]
    exact h.distinct u (List.mem_of_getElem? h1)
  · intro i j u' v' hi hj hij
    obtain ⟨u, h1, h2, h3, _⟩ := hget i u' hi
    obtain ⟨v, h4, h5, h6, _⟩ := hget j v' hj
    exact ((h.apart i j u v h1 h4 hij).world hidw).like h2 h3 h5 h6
  · intro u' hu'
    obtain ⟨j, hj⟩ := List.mem_iff_getElem?.1 hu'
    obtain ⟨u, h1, _, _, h4, h5⟩ := hget j u' hj
    obtain ⟨n0, r1, r2⟩ := h.runs u (List.mem_of_getElem? h1)
    by_cases hjk : j = k
    · obtain ⟨rfl, rfl⟩ := h5 hjk
      rw [hparty, hcv]
      exact ⟨n0, r1, .step r2 hself⟩
    · rw [h4 hjk]
      exact ⟨n0, r1, asteps_trans r2 (seen_other (h.distinct u (List.mem_of_getElem? h1)) hc (hothers j u h1 hjk))⟩

/-- A call for the address of one conversation leaves another one alone, if it saves only the peer's identity and keeps the prekey. -/
theorem leaves_of_separate {world : P → World} {t u : Chat P} (h : Separate world t u) {b : Bool} {w' : World}
    (hc : (∃ c : Call, c.addr = t.cv.addr b ∧ c.next (world (t.party b)) = w') ∨ w' = world (t.party b))
    (hid : w'.identities (t.cv.addr b).1 = (world (t.party b)).identities (t.cv.addr b).1 ∨
      w'.identities (t.cv.addr b).1 = some (world (t.party !b)).identityKeyPair.pub)
    (hpk : u.party false = t.party b → ∀ i, u.cv.preKeyId = some i → w'.preKeys i = (world (t.party b)).preKeys i) :
    LeavesChat world (t.party b) w' u := by
  intro a ha
  rcases hc with ⟨c, hca, rfl⟩ | rfl
  · refine ⟨?_, ?_, ?_⟩
    · apply (C30_isolation _ c).1
      rw [hca]
      exact fun he => h.addr b a ha.symm he.symm
    · by_cases hn : (t.cv.addr b).1 = (u.cv.addr a).1
      · rw [← hn, ← h.name b a ha.symm hn]
        exact hid
      · left
        apply (C30_isolation _ c).2.1
        rw [hca]
        exact fun he => hn he.symm
    · rintro rfl
      exact hpk ha
  · exact ⟨rfl, Or.inl rfl, fun _ _ _ => rfl⟩

/-- Setting up a conversation leaves another one alone. -/
theorem seen_builds {t u : Chat P} (hd : u.party true ≠ u.party false) {b : Bool} {key : ECPub} {w' : World} {world0 : P → World}
    (hb : Builds (t.cv.addr b) key (world0 (t.party b)) w') :
    ∀ {world : P → World}, world (t.party b) = world0 (t.party b) → Separate world t u →
      key = (world (t.party !b)).identityKeyPair.pub → t.party true ≠ t.party false →
      ASteps u.cv (u.net world) (u.net (upd world (t.party b) w')) ∧
      w'.identityKeyPair = (world (t.party b)).identityKeyPair := by
  induction hb with
  | refl =>
    intro world h1 _ _ _
    rw [← h1, upd_self]
    exact ⟨.refl, rfl⟩
  | @step w1 c hb hca hnp hid ih =>
    intro world h1 hs hk htd
    obtain ⟨s1, s2⟩ := ih h1 hs hk htd
    have hidw := upd_identities (w := world) (p := t.party b) s2
    have hs' := hs.world hidw
    have hat : upd world (t.party b) w1 (t.party b) = w1 := upd_same _ _ _
    refine ⟨?_, (C30_isolation _ c).2.2.2.1.trans s2⟩
    have hstep := seen_other hd (world := upd world (t.party b) w1) (p := t.party b) (w' := c.next w1)
      (Or.inl ⟨c, by rw [hat]⟩) (leaves_of_separate hs' (Or.inl ⟨c, hca, by rw [hat]⟩)
        (by rw [hat, hidw, ← hk]; exact hid) (by rw [hat]; exact fun _ i _ => C27_other_calls _ c hnp i))
    rw [show upd (upd world (t.party b) w1) (t.party b) (c.next w1) = upd world (t.party b) (c.next w1) by
      funext q; unfold upd; split <;> rfl] at hstep
    exact asteps_trans s1 hstep

theorem sysInvOf_step (hC : C.Lawful) {Q : (Bool → P) → Conv → Net → Prop}
    (hQ : ∀ p cv n, Q p cv n → ∃ n0, Start cv n0 ∧ ASteps cv n0 n) {s s' : System P} {e : Spec.SysEvent P}
    (h : SysInvOf Q s) (hs : SysStep s e s')
    (hnew : ∀ t ∈ s'.chats.drop s.chats.length, Start t.cv (t.net s'.world) → Q t.party t.cv (t.net s'.world)) : SysInvOf Q s' := by
  cases hs with
  | @start t world hd hap hb hrest hst =>
    have hww : world = upd (upd s.world (t.party true) (world (t.party true))) (t.party false) (world (t.party false)) := by
      funext p
      by_cases h1 : p = t.party false
      · rw [h1, upd_same]
      · rw [upd_other _ _ h1]
        by_cases h2 : p = t.party true
        · rw [h2, upd_same]
        · rw [upd_other _ _ h2]; exact hrest p h2 h1
    have hidb : ∀ {a : Address} {key : ECPub} {w w' : World}, Builds a key w w' → w'.identityKeyPair = w.identityKeyPair := by
      intro a key w w' hb
      induction hb with
      | refl => rfl
      | step _ _ _ _ ih => exact (C30_isolation _ _).2.2.2.1.trans ih
    have hid : ∀ p, (world p).identityKeyPair = (s.world p).identityKeyPair := by
      intro p
      by_cases h1 : p = t.party false
      · rw [h1]; exact hidb (hb false)
      · by_cases h2 : p = t.party true
        · rw [h2]; exact hidb (hb true)
        · rw [hrest p h2 h1]
    have hseen : ∀ u ∈ s.chats, ASteps u.cv (u.net s.world) (u.net world) := by
      intro u hu
      obtain ⟨p1, p2⟩ := seen_builds (t := t) (b := true) (h.distinct u hu) (hb true) rfl (hap u hu) rfl hd
      have hsep := (hap u hu).world (upd_identities p2)
      obtain ⟨p3, _⟩ := seen_builds (t := t) (b := false) (world := upd s.world (t.party true) (world (t.party true)))
        (h.distinct u hu) (hb false) (by rw [upd_other _ _ (fun e => hd e.symm)]) hsep
        (by rw [upd_identities p2]) hd
      rw [← hww] at p3
      exact asteps_trans p1 p3
    refine ⟨?_, ?_, ?_⟩
    · intro u hu
      rcases List.mem_append.1 hu with hu | hu
      · exact h.distinct u hu
      · obtain rfl := List.mem_singleton.1 hu
        exact hd
    · intro j k u v hj hk hjk
      have hlast : ∀ (j : Nat) u, (s.chats ++ [t])[j]? = some u → s.chats[j]? = some u ∨ (j = s.chats.length ∧ u = t) := by
        intro j u hj
        rw [List.getElem?_append] at hj
        split at hj
        · exact Or.inl hj
        · rename_i hlen
          right
          have : j - s.chats.length = 0 := by
            by_contra hne
            obtain ⟨n, hn⟩ := Nat.exists_eq_succ_of_ne_zero hne
            rw [hn] at hj
            simp at hj
          rw [this] at hj
          exact ⟨by omega, (Option.some.inj hj).symm⟩
      apply Spec.Separate.world _ hid
      rcases hlast j u hj with hj' | ⟨hj', rfl⟩ <;> rcases hlast k v hk with hk' | ⟨hk', rfl⟩
      · exact h.apart j k u v hj' hk' hjk
      · exact (hap u (List.mem_of_getElem? hj')).symm
      · exact hap v (List.mem_of_getElem? hk')
      · exact absurd (hj'.trans hk'.symm) hjk
    · intro u hu
      rcases List.mem_append.1 hu with hu | hu
      · obtain ⟨n0, r1, r2⟩ := h.runs u hu
        exact ⟨n0, r1, asteps_trans r2 (hseen u hu)⟩
      · obtain rfl := List.mem_singleton.1 hu
        exact ⟨_, hnew u (by simp) hst, .refl⟩
  | @send k t b pt c hk hj hpt hc =>
    have hd := h.distinct t (List.mem_of_getElem? hk)
    refine sysInv_move h hk (b := b) ?_ ?_ (final_identity _ _) ?_ (Or.inl ⟨.encrypt (t.cv.addr b) pt, rfl⟩) ?_
    · rfl
    · rfl
    rotate_left
    · intro j u hju hjk
      apply leaves_of_separate (h.apart k j t u hk hju (Ne.symm hjk)) (Or.inl ⟨.encrypt (t.cv.addr b) pt, rfl, rfl⟩)
      · left
        apply applyAll_identities
        intro k hk
        obtain ⟨_, _, _, h2⟩ := encrypt_writes hk
        cases h2
      · exact fun _ i _ => C27_other_calls _ (.encrypt (t.cv.addr b) pt) (by intros; intro h; cases h) i
    · have := net_upd hd s.world b
        ((SessionCipher.encrypt (s.world (t.party b)) (t.cv.addr b) pt).final (s.world (t.party b)))
      have hstep : AStep t.cv (t.net s.world) _ := .honest (.send (n := t.net s.world) (b := b) hj hpt hc)
      have hw := congrArg Net.world this
      simp only [Chat.net] at hw hstep ⊢
      rw [hw]
      exact hstep
  | @deliver k t b i c pt seed seeds hk hi h1 h2 h3 h4 =>
    have hd := h.distinct t (List.mem_of_getElem? hk)
    obtain ⟨n0, r1, r2⟩ := h.runs t (List.mem_of_getElem? hk)
    obtain ⟨_, r1, r1'⟩ := hQ _ _ _ r1
    obtain ⟨⟨ids, hid, hat⟩, _⟩ := asteps_inv hC (asteps_trans r1' r2) (start_ainv hC r1)
    obtain ⟨d1, d2⟩ := deliver_besides hat (b := b) hi seed seeds
    have hcall := receive_call (s.world (t.party b)) (t.cv.addr b) c.getType c.serialize seed seeds
    refine sysInv_move h hk (b := b) ?_ ?_ (final_identity _ _) ?_ (hcall.imp (fun ⟨c, _, hc⟩ => ⟨c, hc⟩) id) ?_
    · rfl
    · rfl
    rotate_left
    · intro j u hju hjk
      have hsep := h.apart k j t u hk hju (Ne.symm hjk)
      apply leaves_of_separate hsep hcall
      · refine d1.imp id fun d1 => ?_
        rw [← hid] at d1
        exact d1
      · intro hp q hq
        rcases d2 q with d2 | ⟨rfl, d2, d3⟩
        · exact d2
        · exact absurd hq (hsep.preKey hp.symm q d2 d3)
    · have hstep : AStep t.cv (t.net s.world) _ := .honest (.deliver (n := t.net s.world) (b := b) (seeds := seeds) hi h1 h2 h3 h4)
      have hw := congrArg Net.world (net_upd hd s.world b
        ((Spec.receive (s.world (t.party b)) (t.cv.addr b) c.getType c.serialize seed seeds).final (s.world (t.party b))))
      simp only [Chat.net] at hw hstep ⊢
      rw [hw]
      exact hstep
  | @attack k t b type bytes seed seeds acc hk ha h1 h2 h3 h4 hr hpk =>
    have hd := h.distinct t (List.mem_of_getElem? hk)
    have hcall := receive_call (s.world (t.party b)) (t.cv.addr b) type bytes seed seeds
    refine sysInv_move h hk (b := b) ?_ ?_ (final_identity _ _) ?_ (hcall.imp (fun ⟨c, _, hc⟩ => ⟨c, hc⟩) id) ?_
    · rfl
    · rfl
    rotate_left
    · intro j u hju hjk
      have hsep := h.apart k j t u hk hju (Ne.symm hjk)
      apply leaves_of_separate hsep hcall
      · rcases receive_identity (s.world (t.party b)) (t.cv.addr b) type bytes seed seeds with d | ⟨m, ht, hp, htr, d⟩
        · exact Or.inl d
        · right
          unfold Attack at ha
          rw [if_pos ht] at ha
          rw [d, (ha m hp).pinned htr]
          rfl
      · intro hp i hi
        rcases receive_preKeys (s.world (t.party b)) (t.cv.addr b) type bytes seed seeds i with d | ⟨_, _, _, _, _, hne⟩
        · exact d
        · exact hpk u (List.mem_of_getElem? hju) hp i hi (fun hb ht => by subst hb; exact hsep.preKey hp.symm i ht hne hi)
    · have hstep : AStep t.cv (t.net s.world) _ := .attack (n := t.net s.world) (b := b) ha h1 h2 h3 h4 hr
      have hw := congrArg Net.world (net_upd hd s.world b
        ((Spec.receive (s.world (t.party b)) (t.cv.addr b) type bytes seed seeds).final (s.world (t.party b))))
      simp only [Chat.net] at hw hstep ⊢
      rw [hw]
      exact hstep
  | @other p call ho =>
    have hidw := upd_identities (w := s.world) (p := p) (C30_isolation (s.world p) call).2.2.2.1
    refine ⟨h.distinct, fun j k t u hj hk hjk => (h.apart j k t u hj hk hjk).world hidw, ?_⟩
    intro u hu
    obtain ⟨n0, r1, r2⟩ := h.runs u hu
    exact ⟨n0, r1, asteps_trans r2 (seen_other (h.distinct u hu) (Or.inl ⟨call, rfl⟩) (ho u hu))⟩

theorem sysInv_step (hC : C.Lawful) {s s' : System P} {e : Spec.SysEvent P} (h : SysInv s) (hs : SysStep s e s') : SysInv s' :=
  sysInvOf_step hC (fun _ _ _ h => ⟨_, h, .refl⟩) h hs fun _ _ h => h

theorem sysReach_inv (hC : C.Lawful) {s : System P} (h : SysReach s) : SysInv s := by
  induction h with
  | init => exact ⟨fun t ht => (List.not_mem_nil ht).elim, fun j k t u h => by simp at h, fun t ht => (List.not_mem_nil ht).elim⟩
  | step _ hs ih => exact sysInv_step hC ih hs

end
end Axolotl
