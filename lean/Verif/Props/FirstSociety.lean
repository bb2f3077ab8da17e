import Verif.Spec.FirstSociety
import Verif.Props.FirstUse
import Verif.Props.Removal

/-! # C106: whole systems and societies of first conversations -/

namespace Axolotl
section
variable [C : Crypto] {P : Type} [DecidableEq P]
open Spec

/-- A conversation that began as the first between its sides. -/
def FirstStart (cv : Conv) (n : Net) : Prop := Start cv n ∧ First cv n

abbrev FirstInv (s : System P) : Prop := SysInvOf (fun _ => FirstStart) s

omit [DecidableEq P] in
theorem composes_crafts (hC : C.Lawful) {s : System P} (h : FirstInv s) {t : Chat P} (ht : t ∈ s.chats) {b : Bool} {type : Nat} {bytes : Bytes}
    (hc : Composes t (t.net s.world) b type bytes) : Crafts t (t.net s.world) b type bytes := by
  obtain ⟨n0, ⟨h1, h2⟩, h3⟩ := h.runs t ht
  obtain ⟨key, top, spkId, l, k1, k2, k3⟩ := hc
  exact ⟨key, top, spkId, l, k1, k2, C97_craft hC h1 h2 h3 k2 k3⟩

omit [DecidableEq P] in
theorem composes_attack (hC : C.Lawful) {s : System P} (h : FirstInv s) {t : Chat P} (ht : t ∈ s.chats) {b : Bool} {type : Nat} {bytes : Bytes}
    (hc : Composes t (t.net s.world) b type bytes) : Attack t.cv (t.net s.world) b type bytes := by
  obtain ⟨n0, ⟨h1, _⟩, h3⟩ := h.runs t ht
  obtain ⟨key, top, spkId, l, k1, k2, k3⟩ := composes_crafts hC h ht hc
  exact C95_attack hC h1 h3 k1 k2 k3

omit [DecidableEq P] in
theorem crafts_composes {t : Chat P} {n : Net} {b : Bool} {type : Nat} {bytes : Bytes} (hc : Crafts t n b type bytes) :
    Composes t n b type bytes := by
  obtain ⟨key, top, spkId, l, k1, k2, k3⟩ := hc
  exact ⟨key, top, spkId, l, k1, k2, craft_compose k3⟩

theorem firstInv_step (hC : C.Lawful) {s s' : System P} {e : SysEvent P} (h : FirstInv s) (hs : SysStep s e s') (hf : FirstStarts s s') :
    FirstInv s' :=
  sysInvOf_step hC (fun _ _ _ q => ⟨_, q.1, .refl⟩) h hs fun t ht q => ⟨q, hf t ht⟩

theorem firstReach_inv (hC : C.Lawful) {s : System P} (h : FirstReachBy (fun t n b type bytes => Attack t.cv n b type bytes) s) :
    SysReach s ∧ FirstInv s := by
  induction h with
  | init =>
    exact ⟨.init, fun t ht => (List.not_mem_nil ht).elim, fun j k t u h => by simp at h, fun t ht => (List.not_mem_nil ht).elim⟩
  | step _ hs hf ih => exact ⟨.step ih.1 hs, firstInv_step hC ih.2 hs hf⟩

/-- **C106, many conversations.** In systems in which every conversation begins as the first between its two sides, an attacker who
computes can bring about just what the one of C87 can; that older sessions reject the attacker's messages and that our applications
trust no other key of the peer, which C95 and C100 assume, need not be assumed. -/
theorem C106_system (hC : C.Lawful) (s : System P) :
    FirstReachBy Composes s ↔ FirstReachBy (fun t n b type bytes => Attack t.cv n b type bytes) s := by
  constructor
  · intro h
    induction h with
    | init => exact .init
    | step _ hs hf ih => exact .step ih (sysStep_imp hs fun t ht b type bytes hc => composes_attack hC (firstReach_inv hC ih).2 ht hc) hf
  · intro h
    induction h with
    | init => exact .init
    | step h hs hf ih =>
      refine .step ih (sysStep_imp hs fun t ht b type bytes hc => crafts_composes ?_) hf
      obtain ⟨n0, h1, h2⟩ := C87_each hC (firstReach_inv hC h).1 ht
      exact attack_outside hC h1 h2 hc

/-- **C106, many conversations.** So all of C87 holds. -/
theorem C106_reach (hC : C.Lawful) {s : System P} (h : FirstReachBy Composes s) :
    SysReach s ∧ ∀ t ∈ s.chats, ∃ n0, Start t.cv n0 ∧ First t.cv n0 ∧ FSteps t.cv n0 (t.net s.world) := by
  obtain ⟨h1, h2⟩ := firstReach_inv hC ((C106_system hC s).1 h)
  refine ⟨h1, fun t ht => ?_⟩
  obtain ⟨n0, ⟨q1, q2⟩, q3⟩ := h2.runs t ht
  exact ⟨n0, q1, q2, (C97_steps hC q1 q2).2 ((C95_steps hC q1).2 q3)⟩

/-- **C106, what is accepted.** Whatever such an attacker delivers to a party as coming from the peer of one conversation: if it is
accepted, then this very peer sent it in this very conversation, and it was not accepted before. -/
theorem C106_only_sent (hC : C.Lawful) {s : System P} (h : FirstReachBy Composes s) {t : Chat P} (ht : t ∈ s.chats) {b : Bool} {type : Nat}
    {bytes seed : Bytes} {seeds : Nat → Bytes} (ha : Composes t (t.net s.world) b type bytes) (hs1 : seed.length = 32)
    (hs2 : (seeds 0).length = 32) (hf1 : C.genPub (C.genPriv seed) ∉ t.keys) (hf2 : C.genPub (C.genPriv (seeds 0)) ∉ t.keys)
    {pt : Bytes} (hok : (Spec.receive (s.world (t.party b)) (t.cv.addr b) type bytes seed seeds).result = .ok pt) :
    ∃ (i : Nat) (c : Ciphertext), (t.sent (!b))[i]? = some (c, pt) ∧ i ∉ t.accepted b ∧
      InnerBytes type bytes c.inner.serialized := by
  obtain ⟨h1, h2⟩ := firstReach_inv hC ((C106_system hC s).1 h)
  exact C87_only_sent hC h1 ht (composes_attack hC h2 ht ha) hs1 hs2 hf1 hf2 hok

theorem societyStepBy_renew {A : Chat P → Net → Bool → Nat → Bytes → Prop} {owner : SenderKeyName → P} {enc : SenderKeyName → Bytes → Bytes}
    {safe : SenderKeyName → Nat → Prop} {a a' : Society P} (h : SocietyStepBy A owner enc safe a a')
    (hA : ∀ t ∈ a.sys.chats, ∀ b type bytes, A t (t.net a.sys.world) b type bytes → Crafts t (t.net a.sys.world) b type bytes) :
    RSocietyStep owner enc safe a a' := by
  cases h with
  | talk h1 h2 => exact .talk (sysStep_imp h1 hA) h2
  | group m c hc => exact .group m c hc
  | renew n rnd h1 h2 h3 h4 => exact .renew n rnd h1 h2 h3 h4

theorem renew_societyStepBy {A : Chat P → Net → Bool → Nat → Bytes → Prop} {owner : SenderKeyName → P} {enc : SenderKeyName → Bytes → Bytes}
    {safe : SenderKeyName → Nat → Prop} {a a' : Society P} (h : RSocietyStep owner enc safe a a')
    (hA : ∀ t ∈ a.sys.chats, ∀ b type bytes, Crafts t (t.net a.sys.world) b type bytes → A t (t.net a.sys.world) b type bytes) :
    SocietyStepBy A owner enc safe a a' := by
  cases h with
  | talk h1 h2 => exact .talk (sysStep_imp h1 hA) h2
  | group m c hc => exact .group m c hc
  | renew n rnd h1 h2 h3 h4 => exact .renew n rnd h1 h2 h3 h4

theorem rsociety_first (hC : C.Lawful) {owner : SenderKeyName → P} {enc : SenderKeyName → Bytes → Bytes} {safe : SenderKeyName → Nat → Prop}
    {a a' : Society P} (h : RSocietyReach owner enc safe a) (hi : FirstInv a.sys) (hs : RSocietyStep owner enc safe a a')
    (hf : FirstStarts a.sys a'.sys) : FirstInv a'.sys := by
  cases hs with
  | talk h1 h2 => exact firstInv_step hC hi (sysStep_imp h1 fun t ht b type bytes hc => crafts_attack hC (removal_inv hC h).sys ht hc) hf
  | group m c hc => exact hi
  | renew n rnd h1 h2 h3 h4 => exact hi

theorem fsociety_inv (hC : C.Lawful) {owner : SenderKeyName → P} {enc : SenderKeyName → Bytes → Bytes} {safe : SenderKeyName → Nat → Prop}
    {a : Society P} (h : FSocietyReach owner enc safe a) : RSocietyReach owner enc safe a ∧ FirstInv a.sys := by
  induction h with
  | init =>
    exact ⟨.init, fun t ht => (List.not_mem_nil ht).elim, fun j k t u h => by simp at h, fun t ht => (List.not_mem_nil ht).elim⟩
  | step _ hs hf ih =>
    have hs' := societyStepBy_renew hs fun t ht b type bytes hc => composes_crafts hC ih.2 ht hc
    exact ⟨.step ih.1 hs', rsociety_first hC ih.1 ih.2 hs' hf⟩

/-- **C106, conversations and groups.** The same with groups whose keys are renewed and announced in the conversations: whatever comes
about is as C105 says; so all that is proved there holds, about authenticity, secrecy and removed members. -/
theorem C106_society (hC : C.Lawful) {owner : SenderKeyName → P} {enc : SenderKeyName → Bytes → Bytes} {safe : SenderKeyName → Nat → Prop}
    {a : Society P} (h : FSocietyReach owner enc safe a) : RSocietyReach owner enc safe a :=
  (fsociety_inv hC h).1

/-- **C106.** And nothing is lost: every event of C105 can happen, if a conversation that begins is a first one. -/
theorem C106_possible {owner : SenderKeyName → P} {enc : SenderKeyName → Bytes → Bytes} {safe : SenderKeyName → Nat → Prop}
    {a a' : Society P} (h : FSocietyReach owner enc safe a) (hs : RSocietyStep owner enc safe a a') (hf : FirstStarts a.sys a'.sys) :
    FSocietyReach owner enc safe a' :=
  .step h (renew_societyStepBy hs fun _ _ _ _ _ hc => crafts_composes hc) hf

omit C [DecidableEq P] in
theorem firstStarts_same {s s' : System P} (h : s'.chats.length = s.chats.length) : FirstStarts s s' := by
  intro t ht
  rw [← h, List.drop_length] at ht
  cases ht

omit [DecidableEq P] in
/-- **C106, how conversations begin.** Someone processes the bundle that another party has published; neither of the two had a session
with the other whose states had any chain; both applications trust on first use: then the conversation is a first one. -/
theorem C106_bundle (hC : C.Lawful) {s : System P} {world : P → World} {t : Chat P} {b : PreKeyBundle} {spkId otId : Nat} {spk otk : KeyPair}
    {baseSeed ratchetSeed : Bytes} (hA : GoodSelf (s.world (t.party true)))
    (hB : Published (s.world (t.party false)) b spkId spk (some (otId, otk)))
    (htr : (s.world (t.party true)).isTrusted (t.cv.addr true).1 b.identityKey = true) (h1 : baseSeed.length = 32) (h2 : ratchetSeed.length = 32)
    (hp : ∀ c, FirstUse (s.world (t.party c)))
    (hn : ∀ c r, (s.world (t.party c)).sessions (t.cv.addr c) = some r → ∀ x ∈ states r, Chainless x)
    (hcv : t.cv.start = (fun c => if c then [spk.pub] else []) ∧ t.cv.waits = true ∧ t.cv.preKeyId = some otId)
    (hw : world (t.party true) = (SessionBuilder.processPreKeyBundle (s.world (t.party true)) (t.cv.addr true) b baseSeed ratchetSeed).final
      (s.world (t.party true))) (hw' : world (t.party false) = s.world (t.party false))
    (hnew : t.sent = (fun _ => []) ∧ t.accepted = fun _ => []) :
    FirstStarts s { world := world, chats := s.chats ++ [t] } := by
  intro u hu
  have hu : u ∈ (s.chats ++ [t]).drop s.chats.length := hu
  rw [List.drop_left] at hu
  obtain rfl := List.mem_singleton.1 hu
  have := C97_bundle hC (keys := u.keys) (ba := u.cv.addr false) hA hB htr h1 h2 (hp true) (hp false) (hn true) (hn false)
  obtain ⟨e1, e2, e3⟩ := hcv
  obtain ⟨e4, e5⟩ := hnew
  have ecv : u.cv = ⟨fun c => if c then u.cv.addr true else u.cv.addr false, fun c => if c then [spk.pub] else [], true, some otId⟩ := by
    obtain ⟨party, ⟨addr, start, waits, preKeyId⟩, _, _, _⟩ := u
    simp only at e1 e2 e3 ⊢
    rw [e1, e2, e3]
    congr 1
    funext c
    cases c <;> rfl
  have enet : u.net world = ⟨fun c => if c then (SessionBuilder.processPreKeyBundle (s.world (u.party true)) (u.cv.addr true) b
      baseSeed ratchetSeed).final (s.world (u.party true)) else s.world (u.party false), fun _ => [], fun _ => [], u.keys⟩ := by
    unfold Chat.net
    rw [e4, e5]
    congr 1
    funext c
    cases c
    · exact hw'
    · exact hw
  show First u.cv (u.net world)
  rw [enet, ecv]
  exact this

end

/-! ## Non-vacuity: the systems of C87 and C105 -/

section
attribute [local instance] toy
open Example Spec

theorem first_start1 : FirstStarts sys0 sys1 := by
  intro t ht
  have ht : t ∈ [chatA].drop 0 := ht
  obtain rfl := List.mem_singleton.1 ht
  have : chatA.net sys1.world = act0 := by
    unfold Chat.net act0
    congr 1
    funext b
    cases b
    · exact sys1_bob
    · exact sys1_alice.trans (aliceSet_eq.trans (next_processBundle ..))
  rw [this]
  exact act_first

/-- By `C106_bundle`. -/
theorem first_start2 : FirstStarts sys1 sys2 := by
  have hp := contact_example.published
  have hc : sys1.world (chatC.party true) = carol0 := sys1_carol
  have hb : sys1.world (chatC.party false) = bobTwo := sys1_bob
  refine C106_bundle toy_lawful (s := sys1) (t := chatC) (world := sys2.world) (b := carolBundle) (spkId := 22) (otId := 32) (spk := pair 22)
    (otk := pair 32) (baseSeed := key 43) (ratchetSeed := key 44) ?_ ?_ ?_ rfl rfl ?_ ?_ ⟨rfl, rfl, rfl⟩ ?_ ?_ ⟨rfl, rfl⟩
  · rw [hc]
    exact ⟨⟨by decide +kernel, by decide +kernel, toy_generated _ (by decide +kernel)⟩, by decide +kernel⟩
  · rw [hb]
    exact ⟨hp.identity, hp.goodIdentity, hp.signedKey, hp.signedId, hp.signedRange, hp.signedStored, hp.goodSigned, hp.signature,
      rfl, (by
        intro p h
        obtain rfl := Option.some.inj h
        exact ⟨rfl, by decide +kernel, ⟨(PreKeyRecord.mk' 32 (pair 32)).toOption.getD {}, by decide +kernel, by decide +kernel, by decide +kernel⟩,
          ⟨by decide +kernel, by decide +kernel, toy_generated _ (by decide +kernel)⟩⟩), hp.registration, hp.registrationRange⟩
  · rw [hc]
    decide
  · intro c
    cases c
    · rw [hb]; exact tofu_firstUse rfl
    · rw [hc]; exact tofu_firstUse rfl
  · intro c r hr
    cases c
    · rw [hb] at hr; cases hr
    · rw [hc] at hr; cases hr
  · show sys2.world 2 = _
    rw [hc]
    exact sys2_carol.trans (carolSet_eq.trans (next_processBundle ..))
  · show sys2.world 1 = _
    rw [hb, sys2_bob]

theorem step_chats {s s' : System (Fin 3)} {k : Nat} {b : Bool}
    {f : Conv → Net → Option Net} (h : sysMove s k b f = some s') : s'.chats.length = s.chats.length := by
  unfold sysMove at h
  split at h
  · cases h
  · obtain ⟨n, _, rfl⟩ := Option.map_eq_some_iff.1 h
    exact List.length_set

theorem sysRun_first {s : System (Fin 3)} (h : sysRun = some s) : FirstReachBy Composes s := by
  refine (C106_system toy_lawful s).2 ?_
  unfold sysRun at h
  simp only [Option.bind_eq_some_iff] at h
  obtain ⟨a1, h1, a2, h2, a3, h3, a4, h4, a5, h5, a6, h6, a7, h7, h8⟩ := h
  have gs : ∀ {a b : System (Fin 3)} {k : Nat} {c : Bool} {pt : Bytes},
      FirstReachBy (fun t n b type bytes => Attack t.cv n b type bytes) a →
      sysMove a k c (fun cv n => convSend cv n c pt) = some b →
      FirstReachBy (fun t n b type bytes => Attack t.cv n b type bytes) b := fun h hs => by
    obtain ⟨_, _, hs'⟩ := sysSend_step hs
    exact .step h hs' (firstStarts_same (step_chats hs))
  have gd : ∀ {a b : System (Fin 3)} {k i : Nat} {c : Bool} {seed : Bytes},
      FirstReachBy (fun t n b type bytes => Attack t.cv n b type bytes) a →
      sysMove a k c (fun cv n => convDeliver cv n c i seed) = some b →
      FirstReachBy (fun t n b type bytes => Attack t.cv n b type bytes) b := fun h hs => by
    obtain ⟨_, _, _, _, _, hs'⟩ := sysDeliver_step hs
    exact .step h hs' (firstStarts_same (step_chats hs))
  have r2 : FirstReachBy (fun t n b type bytes => Attack t.cv n b type bytes) sys2 :=
    .step (.step .init sys_start1 first_start1) sys_start2 first_start2
  have r3 : FirstReachBy (fun t n b type bytes => Attack t.cv n b type bytes) a3 := by
    obtain ⟨e, hs⟩ := sysAttack_step h3
    unfold sysAttack at h3
    exact .step (gs (gs r2 h1) h2) hs (firstStarts_same (step_chats (Option.filter_eq_some_iff.1 h3).1))
  exact gd (gs (gs (gd (gd r3 h4) h5) h6) h7) h8

/-- The hypotheses of `C106_reach` are met, by the system of C87: all conversations are first ones. -/
example : ∃ s : System (Fin 3), FirstReachBy Composes s ∧ sysCheck s = true := by
  have h := sysRun_check
  cases hr : sysRun with
  | none => rw [hr] at h; cases h
  | some s => rw [hr] at h; exact ⟨s, sysRun_first hr, h⟩

theorem fsoc_talk {safe : SenderKeyName → Nat → Prop} {a : Society (Fin 3)} {e : SysEvent (Fin 3)} {sys : System (Fin 3)}
    (h : FSocietyReach socOwner socEnc safe a) (hs : SysStep a.sys e sys) (hon : HonestEvent socOwner socEnc a.log e)
    (hf : FirstStarts a.sys sys) : FSocietyReach socOwner socEnc safe ⟨sys, a.groups, a.log, noted a.inbox e⟩ := by
  refine C106_possible h (.talk (sysStep_imp hs fun t ht b type bytes hc => ?_) hon) hf
  obtain ⟨n0, k1, k2⟩ := C87_each toy_lawful (removal_inv toy_lawful (C106_society toy_lawful h)).sys ht
  exact attack_outside toy_lawful k1 k2 hc

/-- The hypotheses of `C106_society` are met, by the society of C88: Alice has announced a key to Bob, who has taken it up. -/
theorem fsoc_reach {a : Society (Fin 3)} (h : soc2 = some a) (hc : remCheck a = true) :
    FSocietyReach socOwner socEnc (fun _ _ => True) (soc4 a) := by
  unfold remCheck at hc
  simp only [Bool.and_eq_true, beq_iff_eq, decide_eq_true_eq] at hc
  have r0 : FSocietyReach socOwner socEnc (fun _ _ => True) soc0 :=
    fsoc_talk (a := ⟨sys1, fun _ => GroupStore.empty, [], fun _ => []⟩) (e := .unseen)
      (fsoc_talk (a := ⟨sys0, fun _ => GroupStore.empty, [], fun _ => []⟩) (e := .unseen) (.init (world := sys0.world))
        sys_start1 trivial first_start1) sys_start2 trivial first_start2
  have r1 : FSocietyReach socOwner socEnc (fun _ _ => True) soc1 :=
    C106_possible r0 (.group 0 (.create grp grpRand) ⟨rfl, by decide +kernel, by decide +kernel⟩) (firstStarts_same rfl)
  unfold soc2 at h
  obtain ⟨a1, h1, h2⟩ := Option.bind_eq_some_iff.1 h
  have r2 : FSocietyReach socOwner socEnc (fun _ _ => True) a := by
    have f1 : FirstStarts soc1.sys a1.sys := by
      obtain ⟨s, hs, rfl⟩ := Option.map_eq_some_iff.1 h1
      exact firstStarts_same (step_chats hs)
    have f2 : FirstStarts a1.sys a.sys := by
      have h2' := h2
      unfold socDeliver at h2'
      split at h2'
      · cases h2'
      · split at h2'
        · cases h2'
        · obtain ⟨s, hs, rfl⟩ := Option.map_eq_some_iff.1 h2'
          exact firstStarts_same (step_chats hs)
    obtain ⟨e1, s1, p1, p2, rfl⟩ := socSend_talk (by decide +kernel) h1
    obtain ⟨e2, s2, p3, p4, rfl⟩ := socDeliver_talk h2
    exact fsoc_talk (fsoc_talk r1 p1 p2 f1) p3 p4 f2
  have r3 : FSocietyReach socOwner socEnc (fun _ _ => True) (soc3 a) :=
    C106_possible r2 (.group 1 (.process grp grpDist) ⟨by decide, grpDist.serialized, by
      rw [hc.1.1.1.1.1.1.1.1.1.1]
      exact List.mem_singleton.2 rfl, by decide +kernel⟩) (firstStarts_same rfl)
  exact C106_possible r3 (.group 0 (.encrypt grp [1] grpSig) ⟨by decide +kernel, by decide +kernel⟩) (firstStarts_same rfl)

example : ∃ a : Society (Fin 3), FSocietyReach socOwner socEnc (fun _ _ => True) a ∧ a.sys.chats.length = 2 ∧ (a.log.length = 3) := by
  have h := rem_check
  cases hr : soc2 with
  | none => rw [hr] at h; cases h
  | some a =>
    rw [hr] at h
    refine ⟨_, fsoc_reach hr h, ?_, ?_⟩
    · unfold soc2 at hr
      obtain ⟨a1, h1, h2⟩ := Option.bind_eq_some_iff.1 hr
      obtain ⟨s, hs, rfl⟩ := Option.map_eq_some_iff.1 h1
      unfold socDeliver at h2
      split at h2
      · cases h2
      · split at h2
        · cases h2
        · obtain ⟨s', hs', rfl⟩ := Option.map_eq_some_iff.1 h2
          exact (step_chats hs').trans (step_chats hs)
    · unfold soc2 at hr
      obtain ⟨a1, h1, h2⟩ := Option.bind_eq_some_iff.1 hr
      obtain ⟨s, hs, rfl⟩ := Option.map_eq_some_iff.1 h1
      unfold socDeliver at h2
      split at h2
      · cases h2
      · split at h2
        · cases h2
        · obtain ⟨s', hs', rfl⟩ := Option.map_eq_some_iff.1 h2
          rfl

end
end Axolotl
