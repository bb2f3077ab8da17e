import Verif.Proofs.System
import Verif.Props.Rewrapped

/-! # C87: any number of parties, talking at the same time over shared stores -/

namespace Axolotl
section
variable [C : Crypto] {P : Type} [DecidableEq P]
open SessionState SessionBuilder RatchetingSession
open Spec (Net Conv Step Start header AStep ASteps Attack Recorded InnerBytes Chat System Separate Builds SysStep SysReach)

/-- **C87, each conversation.** However many parties talk with each other at the same time, each of them over one set of stores:
every conversation has gone as it would alone between its two sides, with an attacker as in C86. -/
theorem C87_each (hC : C.Lawful) {s : System P} (h : SysReach s) {t : Chat P} (ht : t ∈ s.chats) :
    ∃ n0, Start t.cv n0 ∧ ASteps t.cv n0 (t.net s.world) :=
  (sysReach_inv hC h).runs t ht

/-- **C87, messages get through.** In every conversation a message of the peer that was not accepted so far decrypts to what was
encrypted, and one accepted before is refused as a duplicate. -/
theorem C87_conversation (hC : C.Lawful) {s : System P} (h : SysReach s) {t : Chat P} (ht : t ∈ s.chats)
    {b : Bool} {i : Nat} {c : Ciphertext} {pt : Bytes} (hi : (t.sent (!b))[i]? = some (c, pt))
    {seed : Bytes} (hseed : seed.length = 32) (hfresh : C.genPub (C.genPriv seed) ∉ t.keys) (seeds : Nat → Bytes) :
    let w := s.world (t.party b)
    let o := Spec.receive w (t.cv.addr b) c.getType c.serialize seed seeds
    (i ∉ t.accepted b → (t.net s.world).inLimits t.cv b (header c) → o.result = .ok pt) ∧
    (i ∈ t.accepted b → (t.net s.world).remembered t.cv b (header c) →
      o.result = .error .duplicateMessage ∧ (o.final w).sessions = w.sessions ∧ (o.final w).preKeys = w.preKeys) := by
  obtain ⟨n0, h1, h2⟩ := C87_each hC h ht
  exact C86_conversation hC h1 h2 (n := t.net s.world) hi hseed hfresh seeds

/-- **C87, what is accepted.** Whatever the attacker delivers to a party as coming from the peer of one conversation, be it made up
or taken from any other conversation: if it is accepted, then it is a message that this very peer sent in this very conversation and
that was not accepted before. -/
theorem C87_only_sent (hC : C.Lawful) {s : System P} (h : SysReach s) {t : Chat P} (ht : t ∈ s.chats) {b : Bool} {type : Nat}
    {bytes seed : Bytes} {seeds : Nat → Bytes} (ha : Attack t.cv (t.net s.world) b type bytes) (hs1 : seed.length = 32)
    (hs2 : (seeds 0).length = 32) (hf1 : C.genPub (C.genPriv seed) ∉ t.keys) (hf2 : C.genPub (C.genPriv (seeds 0)) ∉ t.keys)
    {pt : Bytes} (hok : (Spec.receive (s.world (t.party b)) (t.cv.addr b) type bytes seed seeds).result = .ok pt) :
    ∃ (i : Nat) (c : Ciphertext), (t.sent (!b))[i]? = some (c, pt) ∧ i ∉ t.accepted b ∧
      InnerBytes type bytes c.inner.serialized := by
  obtain ⟨n0, h1, h2⟩ := C87_each hC h ht
  exact C86_only_sent hC h1 h2 (n := t.net s.world) ha hs1 hs2 hf1 hf2 hok

/-- **C87, once.** In no conversation a message is accepted twice. -/
theorem C87_once (hC : C.Lawful) {s : System P} (h : SysReach s) {t : Chat P} (ht : t ∈ s.chats) (b : Bool) :
    (t.accepted b).Nodup ∧ ∀ i ∈ t.accepted b, i < (t.sent (!b)).length := by
  obtain ⟨n0, h1, h2⟩ := C87_each hC h ht
  exact C86_once hC h1 h2 b

/-- **C87, sending.** In every conversation each side that has its session can go on sending, up to the last counter value. -/
theorem C87_can_send (hC : C.Lawful) {s : System P} (h : SysReach s) {t : Chat P} (ht : t ∈ s.chats) {b : Bool}
    (hb : (t.net s.world).joined t.cv b) {r : SessionRecord}
    (hr : (s.world (t.party b)).sessions (t.cv.addr b) = some r) {pt : Bytes} (hpt : pt.length < 2 ^ 62) :
    (∃ c, (SessionCipher.encrypt (s.world (t.party b)) (t.cv.addr b) pt).result = .ok c) ↔
      ∃ x k, r.sessionState.senderChain = some x ∧ x.chainKey = some k ∧ (k.index.getD 0) + 1 < 2 ^ 32 := by
  obtain ⟨n0, h1, h2⟩ := C87_each hC h ht
  exact C86_can_send hC h1 h2 (n := t.net s.world) hb hr hpt

/-- **C87, every attack is a step**, if it uses up no one-time prekey that another conversation needs. -/
theorem C87_next (hC : C.Lawful) {s : System P} (h : SysReach s) {k : Nat} {t : Chat P} (hk : s.chats[k]? = some t) {b : Bool}
    {type : Nat} {bytes seed : Bytes} {seeds : Nat → Bytes} (ha : Attack t.cv (t.net s.world) b type bytes)
    (hs1 : seed.length = 32) (hs2 : (seeds 0).length = 32) (hf1 : C.genPub (C.genPriv seed) ∉ t.keys)
    (hf2 : C.genPub (C.genPriv (seeds 0)) ∉ t.keys)
    (hpk : ∀ u ∈ s.chats, u.party false = t.party b → ∀ i, u.cv.preKeyId = some i → (b = false → t.cv.preKeyId ≠ some i) →
      ((Spec.receive (s.world (t.party b)) (t.cv.addr b) type bytes seed seeds).final (s.world (t.party b))).preKeys i =
        (s.world (t.party b)).preKeys i) :
    ∃ s', SysStep s (.received (t.party b) (t.party !b)
        (Spec.receive (s.world (t.party b)) (t.cv.addr b) type bytes seed seeds).result) s' ∧ s'.world = upd s.world (t.party b)
      ((Spec.receive (s.world (t.party b)) (t.cv.addr b) type bytes seed seeds).final (s.world (t.party b))) := by
  obtain ⟨n0, h1, h2⟩ := C87_each hC h (List.mem_of_getElem? hk)
  obtain ⟨acc, hacc⟩ := (attack_recorded hC (asteps_inv hC h2 (start_ainv hC h1)) (n := t.net s.world) ha hs1 hs2 hf1 hf2).2.2
  exact ⟨_, .attack hk ha hs1 hs2 hf1 hf2 hacc hpk, rfl⟩

/-- **C87, the exception.** A one-time prekey that another conversation needs can indeed be used up: the attacker wraps a genuine
message of one peer into a prekey message that names this prekey (C84).  It is accepted, and from then on every first message of
another peer that names the prekey is refused. -/
theorem C87_interference (w : World) (a : Address) (r : SessionRecord) (hr : w.sessions a = some r)
    (hroom : r.previousStates.length < 40) (m : PreKeyWhisperMessage) (hnew : ¬ Spec.knowsBaseKey r m.version m.baseKey)
    (seed : Bytes) (seeds : Nat → Bytes)
    (hbad : SessionCipher.decryptPkmsg (Spec.without w a) a m seed seeds =
      ⟨[.identity a.1 m.identityKey], .error .invalidMessage⟩)
    (pt : Bytes)
    (hgood : (SessionCipher.decryptMsg w a m.message (seeds 0) (fun i => seeds (i + 1))).result = .ok pt)
    {i : Nat} (hi : m.preKeyId = some i) (hne : i ≠ 2 ^ 24 - 1)
    {a' : Address} (ha : a' ≠ a) (p : PreKeyWhisperMessage) (hp : p.preKeyId = some i) (hnew' : ¬ Spec.alreadyKnown w a' p)
    (seed' : Bytes) (seeds' : Nat → Bytes) :
    let o := SessionCipher.decryptPkmsg w a m seed seeds
    o.result = .ok pt ∧
    (∃ e, (SessionCipher.decryptPkmsg (o.final w) a' p seed' seeds').result = .error e) ∧
    (SessionCipher.decryptPkmsg (o.final w) a' p seed' seeds').writes = [] := by
  intro o
  obtain ⟨h1, _, h3⟩ := C84_rewrapped w a r hr hroom m hnew seed seeds hbad pt hgood
  refine ⟨h1, C27_consumed_refused _ a' p seed' seeds' i hp (h3 i hi hne) ?_⟩
  rintro ⟨r', q1, q2⟩
  have hs : (o.final w).sessions a' = w.sessions a' := (C30_isolation w (.decryptPkmsg a m seed seeds)).1 a' ha
  rw [hs] at q1
  exact hnew' ⟨r', q1, q2⟩

end

theorem next_processBundle [C : Crypto] (w : World) (a : Address) (b : PreKeyBundle) (s1 s2 : Bytes) :
    (Call.processBundle a b s1 s2).next w = (SessionBuilder.processPreKeyBundle w a b s1 s2).final w := rfl

/-! ## Non-vacuity: three parties over the toy primitives -/

section
attribute [local instance] toy
open Example
open Spec (Net Conv Step Start header AStep ASteps Attack Recorded InnerBytes Chat System Separate Builds SysStep SysReach)

def carol0 : World := { alice0 with identityKeyPair := pair 3, registrationId := 13 }
abbrev carolAddr : Address := ("carol", 1)
def carolBundle : PreKeyBundle := { bobBundle with preKeyId := 32, preKey := some (key 32) }

/-- Alice is 0, Bob is 1, Carol is 2. -/
def sys0 : System (Fin 3) := { world := fun p => if p = 0 then alice0 else if p = 1 then bobTwo else carol0, chats := [] }

def chatA : Chat (Fin 3) := ⟨fun s => if s then 0 else 1, convCv, act0.sent, act0.accepted, act0.keys⟩
def aliceSet : World := (Call.processBundle bobAddr bobBundle (key 41) (key 42)).next alice0
def sys1 : System (Fin 3) := { world := upd sys0.world 0 aliceSet, chats := [chatA] }

def chatC : Chat (Fin 3) :=
  ⟨fun s => if s then 2 else 1,
    ⟨fun s => if s then bobAddr else carolAddr, fun s => if s then [(pair 22).pub] else [], true, some 32⟩,
    fun _ => [], fun _ => [], [(pair 22).pub, toy.genPub (toy.genPriv (key 44))]⟩
def carolSet : World := (Call.processBundle bobAddr carolBundle (key 43) (key 44)).next carol0
def sys2 : System (Fin 3) := { world := upd sys1.world 2 carolSet, chats := [chatA, chatC] }

theorem aliceSet_eq : aliceSet = (Call.processBundle bobAddr bobBundle (key 41) (key 42)).next alice0 := by
  unfold aliceSet; rfl
theorem carolSet_eq : carolSet = (Call.processBundle bobAddr carolBundle (key 43) (key 44)).next carol0 := by
  unfold carolSet; rfl
theorem sys0_bob : sys0.world 1 = bobTwo := by unfold sys0; rfl
theorem sys1_alice : sys1.world 0 = aliceSet := by unfold sys1; simp only [upd_same]
theorem sys1_bob : sys1.world 1 = bobTwo := by unfold sys1; simp only [upd_other _ _ (show (1 : Fin 3) ≠ 0 by decide)]; rfl
theorem sys1_carol : sys1.world 2 = carol0 := by unfold sys1; simp only [upd_other _ _ (show (2 : Fin 3) ≠ 0 by decide)]; rfl
theorem sys2_carol : sys2.world 2 = carolSet := by unfold sys2; simp only [upd_same]
theorem sys2_bob : sys2.world 1 = bobTwo := by
  unfold sys2
  simp only [upd_other _ _ (show (1 : Fin 3) ≠ 2 by decide)]
  exact sys1_bob

theorem sys_start1 : SysStep sys0 .unseen sys1 := by
  refine Spec.SysStepBy.start (s := sys0) (t := chatA) (world := sys1.world) (by decide) (by intro u hu; cases hu) ?_ ?_ ?_
  · intro b
    cases b
    · show Builds _ _ (sys0.world 1) (sys1.world 1)
      rw [sys0_bob, sys1_bob]
      exact .refl
    · show Builds bobAddr (pair 2).pub alice0 (sys1.world 0)
      rw [sys1_alice, aliceSet_eq]
      exact Builds.step (w' := alice0) .refl rfl (by intros; intro h; cases h) (Or.inr (by decide +kernel))
  · intro p h1 _
    exact upd_other _ _ h1
  · have : chatA.net sys1.world = act0 := by
      unfold Chat.net act0
      congr 1
      funext b
      cases b
      · exact sys1_bob
      · exact sys1_alice.trans (aliceSet_eq.trans (next_processBundle ..))
    rw [this]
    exact act_start

theorem carol_start : Start chatC.cv (chatC.net sys2.world) := by
  have hp := contact_example.published
  have := Start.bundle (wA := carol0) (wB := bobTwo) (ab := bobAddr) (ba := carolAddr) (b := carolBundle) (spkId := 22)
    (otId := 32) (spk := pair 22) (otk := pair 32) (baseSeed := key 43) (ratchetSeed := key 44)
    ⟨⟨by decide +kernel, by decide +kernel, toy_generated _ (by decide +kernel)⟩, by decide +kernel⟩
    ⟨hp.identity, hp.goodIdentity, hp.signedKey, hp.signedId, hp.signedRange, hp.signedStored, hp.goodSigned, hp.signature,
      rfl, (by
        intro p h
        obtain rfl := Option.some.inj h
        exact ⟨rfl, by decide +kernel, ⟨(PreKeyRecord.mk' 32 (pair 32)).toOption.getD {}, by decide +kernel, by decide +kernel, by decide +kernel⟩,
          ⟨by decide +kernel, by decide +kernel, toy_generated _ (by decide +kernel)⟩⟩), hp.registration, hp.registrationRange⟩
    (by decide)
    (by
      intro saved h
      show tofu saved _ _ = true
      unfold tofu
      rcases h with h | h
      · rw [h]
      · rw [h]; simp)
    (Or.inl rfl) rfl rfl (by intro r hr; cases hr) (by decide)
  have hw : (chatC.net sys2.world).world = fun s =>
      if s then (SessionBuilder.processPreKeyBundle carol0 bobAddr carolBundle (key 43) (key 44)).final carol0 else bobTwo := by
    have h : ∀ b, (chatC.net sys2.world).world b = sys2.world (if b then 2 else 1) := fun _ => rfl
    funext b
    rw [h]
    cases b
    · simp only [Bool.false_eq_true, if_false]
      exact sys2_bob
    · simp only [if_true]
      exact sys2_carol.trans (carolSet_eq.trans (next_processBundle ..))
  unfold Chat.net at hw ⊢
  simp only at hw
  rw [hw]
  exact this

theorem sys_start2 : SysStep sys1 .unseen sys2 := by
  refine Spec.SysStepBy.start (s := sys1) (t := chatC) (world := sys2.world) (by decide) ?_ ?_ ?_ carol_start
  · intro u hu
    obtain rfl := List.mem_singleton.1 hu
    refine ⟨by decide, ?_, ?_⟩
    · intro a b h1 h2
      cases a <;> cases b <;> first | (exfalso; revert h2; decide) | (exfalso; revert h1; decide)
    · intro _ i h1 _ h2
      obtain rfl := Option.some.inj h1
      revert h2
      decide
  · intro b
    cases b
    · show Builds _ _ (sys1.world 1) (sys2.world 1)
      rw [sys1_bob, sys2_bob]
      exact .refl
    · show Builds bobAddr (sys1.world 1).identityKeyPair.pub (sys1.world 2) (sys2.world 2)
      rw [sys2_carol, sys1_carol, sys1_bob, carolSet_eq]
      exact Builds.step (w' := carol0) .refl rfl (by intros; intro h; cases h) (Or.inr (by decide +kernel))
  · intro p h1 _
    exact upd_other _ _ h1

/-- Moves a conversation as a run between its two sides does. -/
def sysMove (s : System (Fin 3)) (k : Nat) (b : Bool) (f : Conv → Net → Option Net) : Option (System (Fin 3)) :=
  match s.chats[k]? with
  | none => none
  | some t => (f t.cv (t.net s.world)).map fun n =>
      { world := upd s.world (t.party b) (n.world b), chats := s.chats.set k ⟨t.party, t.cv, n.sent, n.accepted, n.keys⟩ }

theorem sysSend_step {s s' : System (Fin 3)} {k : Nat} {b : Bool} {pt : Bytes}
    (h : sysMove s k b (fun cv n => convSend cv n b pt) = some s') :
    ∃ t, s.chats[k]? = some t ∧ SysStep s (.sent (t.party b) (t.party !b) pt) s' := by
  unfold sysMove at h
  split at h
  · cases h
  · rename_i t ht
    obtain ⟨n, hn, rfl⟩ := Option.map_eq_some_iff.1 h
    unfold convSend at hn
    beta_reduce at hn
    split at hn
    · cases hn
    · rename_i c hc
      split at hn
      · rename_i hcond
        obtain rfl := Option.some.inj hn
        simp only [upd_same]
        exact ⟨t, ht, Spec.SysStepBy.send ht hcond.1 hcond.2 hc⟩
      · cases hn

theorem sysDeliver_step {s s' : System (Fin 3)} {k : Nat} {b : Bool} {i : Nat} {seed : Bytes}
    (h : sysMove s k b (fun cv n => convDeliver cv n b i seed) = some s') :
    ∃ t c pt, s.chats[k]? = some t ∧ (t.sent (!b))[i]? = some (c, pt) ∧ SysStep s (.received (t.party b) (t.party !b)
      (Spec.receive (s.world (t.party b)) (t.cv.addr b) c.getType c.serialize seed (fun _ => [])).result) s' := by
  unfold sysMove at h
  split at h
  · cases h
  · rename_i t ht
    obtain ⟨n, hn, rfl⟩ := Option.map_eq_some_iff.1 h
    unfold convDeliver at hn
    beta_reduce at hn
    split at hn
    · cases hn
    · rename_i c pt hc
      split at hn
      · rename_i hcond
        obtain rfl := Option.some.inj hn
        simp only [upd_same]
        exact ⟨t, c, pt, ht, hc, Spec.SysStepBy.deliver ht hc hcond.1 hcond.2.1 hcond.2.2.1 hcond.2.2.2⟩
      · cases hn

/-- The prekeys that other conversations need are still there. -/
def keptB (s : System (Fin 3)) (k : Nat) (b : Bool) (w' : World) : Bool :=
  match s.chats[k]? with
  | none => false
  | some t => s.chats.all fun u => decide (u.party false ≠ t.party b) ||
      u.cv.preKeyId.all fun i => (!b && t.cv.preKeyId == some i) || decide (w'.preKeys i = (s.world (t.party b)).preKeys i)

def sysAttack (s : System (Fin 3)) (k : Nat) (b : Bool) (type : Nat) (bytes seed seed0 : Bytes) : Option (System (Fin 3)) :=
  (sysMove s k b (fun cv n => convAttack cv n b type bytes seed seed0)).filter fun s' =>
    (s.chats[k]?).any fun t => keptB s k b (s'.world (t.party b))

theorem sysAttack_step {s s' : System (Fin 3)} {k : Nat} {b : Bool} {type : Nat} {bytes seed seed0 : Bytes}
    (h : sysAttack s k b type bytes seed seed0 = some s') : ∃ e, SysStep s e s' := by
  unfold sysAttack at h
  obtain ⟨h, hk⟩ := Option.filter_eq_some_iff.1 h
  unfold sysMove at h
  split at h
  · cases h
  · rename_i t ht
    obtain ⟨n, hn, rfl⟩ := Option.map_eq_some_iff.1 h
    obtain ⟨acc, rfl, h1, h2, h3, h4, h5, h6⟩ := convAttack_spec toy_lawful hn
    simp only [upd_same, ht, Option.any_some] at hk ⊢
    refine ⟨_, Spec.SysStepBy.attack (seeds := fun _ => seed0) ht h1 h2 h3 h4 h5 h6 ?_⟩
    intro u hu hp i hi hb
    unfold keptB at hk
    rw [ht] at hk
    have := List.all_eq_true.1 hk u hu
    rw [hp, hi] at this
    simp only [ne_eq, not_true_eq_false, decide_false, Bool.false_or, Option.all_some, Bool.or_eq_true, Bool.and_eq_true,
      Bool.not_eq_true', beq_iff_eq, decide_eq_true_eq] at this
    rcases this with ⟨h, h'⟩ | h
    · exact absurd h' (hb h)
    · exact h

def sentBytes (s : System (Fin 3)) (k : Nat) (b : Bool) (i : Nat) : Bytes :=
  (s.chats[k]?.bind fun t => (t.sent b)[i]?.map fun x => x.1.serialize).getD []

/-- Alice and Carol each send Bob a message.  The attacker delivers Alice's with the last byte changed.  Bob gets Carol's and then
Alice's, and answers both; Carol gets the answer. -/
def sysRun : Option (System (Fin 3)) :=
  (sysMove sys2 0 true (fun cv n => convSend cv n true [104, 105])).bind fun s =>
    (sysMove s 1 true (fun cv n => convSend cv n true [104, 111])).bind fun s =>
    (sysAttack s 0 false 3 (lastByteChanged (sentBytes s 0 true 0)) (key 51) (key 52)).bind fun s =>
    (sysMove s 1 false (fun cv n => convDeliver cv n false 0 (key 53))).bind fun s =>
    (sysMove s 0 false (fun cv n => convDeliver cv n false 0 (key 54))).bind fun s =>
    (sysMove s 1 false (fun cv n => convSend cv n false [121, 111])).bind fun s =>
    (sysMove s 0 false (fun cv n => convSend cv n false [121, 121])).bind fun s =>
    sysMove s 1 true (fun cv n => convDeliver cv n true 0 (key 55))

theorem sysRun_reach {s : System (Fin 3)} (h : sysRun = some s) : SysReach s := by
  unfold sysRun at h
  simp only [Option.bind_eq_some_iff] at h
  obtain ⟨a1, h1, a2, h2, a3, h3, a4, h4, a5, h5, a6, h6, a7, h7, h8⟩ := h
  have r2 : SysReach sys2 := .step (.step .init sys_start1) sys_start2
  have go : ∀ {a b : System (Fin 3)}, SysReach a → (∃ e, SysStep a e b) → SysReach b := fun h ⟨_, hs⟩ => .step h hs
  have gs : ∀ {a b : System (Fin 3)} {k : Nat} {c : Bool} {pt : Bytes}, SysReach a →
      sysMove a k c (fun cv n => convSend cv n c pt) = some b → SysReach b := fun h hs => by
    obtain ⟨_, _, hs⟩ := sysSend_step hs
    exact .step h hs
  have gd : ∀ {a b : System (Fin 3)} {k i : Nat} {c : Bool} {seed : Bytes}, SysReach a →
      sysMove a k c (fun cv n => convDeliver cv n c i seed) = some b → SysReach b := fun h hs => by
    obtain ⟨_, _, _, _, _, hs⟩ := sysDeliver_step hs
    exact .step h hs
  exact gd (gs (gs (gd (gd (go (gs (gs r2 h1) h2) (sysAttack_step h3)) h4) h5) h6) h7) h8

def sysCheck (s : System (Fin 3)) : Bool :=
  s.chats.length == 2 && ((s.world 1).preKeys 31).isNone && ((s.world 1).preKeys 32).isNone &&
  ((s.chats[0]?).any fun t => t.accepted false == [0] && t.accepted true == [] && (t.sent false).length == 1) &&
  (s.chats[1]?).any fun t => t.accepted false == [0] && t.accepted true == [0]

theorem sysRun_check : sysRun.any sysCheck = true := by decide +kernel

/-- The hypotheses of C87 are met. -/
example : ∃ s : System (Fin 3), SysReach s ∧ sysCheck s = true := by
  have h := sysRun_check
  cases hr : sysRun with
  | none => rw [hr] at h; cases h
  | some s => rw [hr] at h; exact ⟨s, sysRun_reach hr, h⟩

/-- The exception happens: Carol has processed Bob's bundle with prekey 33, somebody wraps Alice's message with this id, and Carol's
first message, which Bob would have accepted, is refused. -/
def carolLate : World :=
  (SessionBuilder.processPreKeyBundle carol0 bobAddr { bobBundle with preKeyId := 33 } (key 43) (key 44)).final carol0
def carolPk : PreKeyWhisperMessage :=
  match (SessionCipher.encrypt carolLate bobAddr [1, 2]).result with
  | .ok (.preKey m) => m
  | _ => firstPk

example : let o := SessionCipher.decryptPkmsg wrapBob aliceAddr wrapPk (key 51) (fun _ => key 52)
    (SessionCipher.decryptPkmsg wrapBob carolAddr carolPk (key 53) (fun _ => key 54)).result = .ok [1, 2] ∧
    o.result = .ok [9, 8, 7] ∧
    ∃ e, (SessionCipher.decryptPkmsg (o.final wrapBob) carolAddr carolPk (key 53) (fun _ => key 54)).result = .error e := by
  have hk : ¬ Spec.alreadyKnown wrapBob carolAddr carolPk := by
    intro h
    have := (loaded_known wrapBob carolAddr carolPk).2 h
    revert this
    decide +kernel
  have h := C87_interference wrapBob aliceAddr wrapRecord wrap_record (by decide +kernel) wrapPk wrap_unknown (key 51)
    (fun _ => key 52) wrap_alone [9, 8, 7] (by decide +kernel) (i := 33) (by decide +kernel) (by decide) (a' := carolAddr) (by decide)
    carolPk (by decide +kernel) hk (key 53) (fun _ => key 54)
  exact ⟨by decide +kernel, h.1, h.2.1⟩

end
end Axolotl
