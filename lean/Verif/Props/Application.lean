import Verif.Spec.Application
import Verif.Props.Calls
import Verif.Props.NoReuse
import Verif.Props.ByteStore
import Verif.Props.Pinning
import Verif.Props.Replay
import Verif.Props.PreKeys

/-! # C63: the application uses its stores between the calls -/

namespace Axolotl
section
variable [C : Crypto]
open SessionState SessionBuilder Spec

/-! ## Invariants -/

omit C in
/-- The application never changes a session; it may delete it. -/
theorem op_sessions (w : World) (o : StoreOp) (a : Address) :
    (o.next w).sessions a = w.sessions a ∨ (o.next w).sessions a = none := by
  cases o with
  | deleteSession b =>
    simp only [StoreOp.next, upd]
    split
    · exact .inr rfl
    · exact .inl rfl
  | deleteAllSessions n =>
    simp only [StoreOp.next]
    split
    · exact .inr rfl
    · exact .inl rfl
  | _ => exact .inl rfl

omit C in
theorem op_record {w : World} {o : StoreOp} {a : Address} {r : SessionRecord} (h : (o.next w).sessions a = some r) :
    w.sessions a = some r := by
  rcases op_sessions w o a with h1 | h1
  · rw [← h1]; exact h
  · rw [h1] at h; cases h

theorem steps_record {P : SessionRecord → Prop} (h0 : P {}) (hfresh : ∀ r, P r → P { r with fresh := false })
    (hstep : ∀ r r', P r → RecStep r r' → P r') : ∀ (ss : List Step) (w : World), (∀ a r, w.sessions a = some r → P r) →
      ∀ a r, (Step.after w ss).sessions a = some r → P r := by
  intro ss
  induction ss with
  | nil => intro w hw a r h; exact hw a r h
  | cons x ss ih =>
    intro w hw a r h
    cases x with
    | call c => exact ih (c.next w) (fun a r hr => reachable_record h0 hfresh hstep [c] w hw a r hr) a r h
    | app o => exact ih (o.next w) (fun a r hr => hw a r (op_record hr)) a r h

theorem steps_all {P : SessionState → Prop} (hP : StateInv P) (w : World) (hw : w.NoSessions) (ss : List Step)
    (a : Address) (r : SessionRecord) (h : (Step.after w ss).sessions a = some r) : r.All P :=
  steps_record (P := fun r => r.All P) ⟨hP.empty, by intro s hs; cases hs⟩ (fun _ h => h)
    (fun _ _ h hs => h.step hP hs) ss w (fun a r h => by rw [hw a] at h; cases h) a r h

theorem steps_forty (w : World) (hw : w.NoSessions) (ss : List Step)
    (a : Address) (r : SessionRecord) (h : (Step.after w ss).sessions a = some r) : r.previousStates.length ≤ 40 := by
  refine steps_record (P := fun r => r.previousStates.length ≤ 40) (by simp) (fun r h => h) ?_ ss w
    (fun a r hr => by rw [hw a] at hr; cases hr) a r h
  intro r r' hr hs
  cases hs with
  | encrypt _ => exact hr
  | decrypt hd => exact dwsr_length hd hr
  | create _ => exact archive_length hr
  | createDecrypt _ hd => exact dwsr_length hd (archive_length hr)
  | pending _ => exact hr

omit C in
theorem all_states {P : SessionState → Prop} {r : SessionRecord} (h : r.All P) {s : SessionState} (hs : s ∈ states r) :
    P s := by
  rcases List.mem_cons.1 hs with rfl | hs
  · exact h.1
  · exact h.2 s hs

/-- **C63.** The bounds of C22 and C23 hold whatever the application does in between. -/
theorem C63_bounded (hC : C.Lawful) (w : World) (hw : w.NoSessions) (ss : List Step) (a : Address) (r : SessionRecord)
    (h : (Step.after w ss).sessions a = some r) :
    r.previousStates.length ≤ 40 ∧ ∀ s ∈ states r, s.receiverChains.length ≤ 5 ∧
      ∀ c ∈ s.receiverChains, (storedCounters c).Nodup ∧ (∀ n ∈ storedCounters c, n < position c) ∧
        c.messageKeys.length ≤ position c ∧ position c < 2 ^ 32 := by
  refine ⟨steps_forty w hw ss a r h, fun s hs => ⟨all_states (steps_all chains_inv w hw ss a r h) hs, ?_⟩⟩
  intro c hc
  have hg := (all_states (steps_all (goodChains_inv hC) w hw ss a r h) hs).good c hc
  have hb := nodup_bound (position c) _ hg.distinct hg.below
  unfold storedCounters at hb
  rw [List.length_map] at hb
  obtain ⟨k, i, h1, h2⟩ := hg.chain
  have hp : position c = i := by unfold position; rw [h1]; rfl
  exact ⟨hg.distinct, hg.below, hb, by omega⟩

/-! ## What every call does -/

theorem steps_identity (ss : List Step) : ∀ (w : World), w.identityKeyPair.pub.length = 32 → (∀ x ∈ ss, Step.Sane x) →
    (Step.after w ss).identityKeyPair.pub.length = 32 := by
  induction ss with
  | nil => intro w h _; exact h
  | cons x ss ih =>
    intro w h hs
    refine ih (x.next w) ?_ (fun y hy => hs y (List.mem_cons_of_mem _ hy))
    cases x with
    | call c => exact (keeps_identity w [c]).symm ▸ h
    | app o =>
      cases o with
      | register k i => exact hs _ (List.mem_cons_self ..)
      | _ => exact h

theorem steps_reached (hC : C.Lawful) (w0 : World) (hw : w0.NoSessions) (hid : w0.identityKeyPair.pub.length = 32)
    (ss : List Step) (hs : ∀ x ∈ ss, Step.Sane x) : Reached (Step.after w0 ss) := by
  refine ⟨steps_identity ss w0 hid hs, ?_, fun a r h => steps_forty w0 hw ss a r h⟩
  intro a r hr
  have h1 := steps_all (goodChains_inv hC) w0 hw ss a r hr
  have h2 := steps_all stateOk_inv w0 hw ss a r hr
  have h3 := steps_all announced_inv w0 hw ss a r hr
  have h4 := steps_all version_known_inv w0 hw ss a r hr
  have h5 := steps_all senderKey_inv w0 hw ss a r hr
  have h6 := steps_all (keySizes_inv hC) w0 hw ss a r hr
  have h7 := steps_all identities_inv w0 hw ss a r hr
  have key : ∀ s ∈ states r, Sendable s := fun s hs =>
    ⟨⟨all_states h1 hs, all_states h5 hs, (all_states h6 hs).1, (all_states h6 hs).2.1, all_states h7 hs,
      (all_states h6 hs).2.2⟩, all_states h2 hs, (all_states h3 hs).1, (all_states h3 hs).2, all_states h4 hs⟩
  exact ⟨key _ (List.mem_cons_self ..), fun s hs => key s (List.mem_cons_of_mem _ hs)⟩

theorem reached_exact (hC : C.Lawful) {w : World} (hr : Reached w) (c : Call) (hc : Sized c) (o : Outcome Reply) :
    Does w c o ↔ c.run w = o := by
  constructor
  · exact does_run hC hr hc
  · intro h
    obtain ⟨o', ho⟩ := does_exists hC hr c hc
    rw [← h, does_run hC hr hc ho]
    exact ho

/-- **C63.** Whatever the application did to its stores before, a call does what the case list of C59 says. -/
theorem C63_exact (hC : C.Lawful) (w0 : World) (hw : w0.NoSessions) (hid : w0.identityKeyPair.pub.length = 32)
    (ss : List Step) (hs : ∀ x ∈ ss, Step.Sane x) (c : Call) (hc : Sized c) (o : Outcome Reply) :
    Does (Step.after w0 ss) c o ↔ c.run (Step.after w0 ss) = o :=
  reached_exact hC (steps_reached hC w0 hw hid ss hs) c hc o

omit C in
theorem callsOf_mem {ss : List Step} {c : Call} (h : .call c ∈ ss) : c ∈ callsOf ss := by
  induction ss with
  | nil => cases h
  | cons x ss ih =>
    cases x with
    | call d =>
      rcases List.mem_cons.1 h with h | h
      · cases h; exact List.mem_cons_self ..
      · exact List.mem_cons_of_mem _ (ih h)
    | app o =>
      rcases List.mem_cons.1 h with h | h
      · cases h
      · exact ih h

theorem runsIn_iff (hC : C.Lawful) (w0 : World) (hw : w0.NoSessions) (hid : w0.identityKeyPair.pub.length = 32)
    (ss : List Step) (hss : ∀ x ∈ ss, Step.Sane x) : ∀ (ds : List Step), (∀ x ∈ ds, Step.Sane x) →
    (∀ c ∈ callsOf ds, Sized c) → ∀ (os : List (Outcome Reply)) (w' : World),
    RunsIn (Step.after w0 ss) ds os w' ↔ os = Step.outcomes (Step.after w0 ss) ds ∧ w' = Step.after w0 (ss ++ ds) := by
  intro ds
  induction ds generalizing ss with
  | nil =>
    intro _ _ os w'
    rw [List.append_nil]
    constructor
    · intro h
      cases h
      exact ⟨rfl, rfl⟩
    · rintro ⟨rfl, rfl⟩
      exact .nil
  | cons d ds ih =>
    intro hsane hsized os w'
    have hnext : Step.after w0 (ss ++ [d]) = d.next (Step.after w0 ss) := by
      unfold Step.after
      rw [List.foldl_append]
      rfl
    have hsane' : ∀ x ∈ ss ++ [d], Step.Sane x := by
      intro x hx
      rcases List.mem_append.1 hx with hx | hx
      · exact hss x hx
      · rw [List.mem_singleton] at hx
        exact hx ▸ hsane d (List.mem_cons_self ..)
    have ih := ih (ss ++ [d]) hsane' (fun x hx => hsane x (List.mem_cons_of_mem _ hx))
    rw [hnext, List.append_assoc] at ih
    cases d with
    | call c =>
      have hc : Sized c := hsized c (List.mem_cons_self ..)
      have ih := ih (fun x hx => hsized x (List.mem_cons_of_mem _ hx))
      constructor
      · intro h
        cases h with
        | call h1 h2 =>
          have e := (C63_exact hC w0 hw hid ss hss c hc _).1 h1
          subst e
          obtain ⟨e1, e2⟩ := (ih _ _).1 h2
          exact ⟨by rw [e1]; rfl, e2⟩
      · rintro ⟨rfl, rfl⟩
        exact .call ((C63_exact hC w0 hw hid ss hss c hc _).2 rfl) ((ih _ _).2 ⟨rfl, rfl⟩)
    | app o =>
      have ih := ih hsized
      constructor
      · intro h
        cases h with
        | app h => exact (ih _ _).1 h
      · rintro ⟨rfl, rfl⟩
        exact .app ((ih _ _).2 ⟨rfl, rfl⟩)

/-- **C63.** Whole histories: with the application working on its stores in between, the outcomes of all calls and the
stores at the end are those, and only those, that the case list allows. -/
theorem C63_history (hC : C.Lawful) (w0 : World) (hw : w0.NoSessions) (hid : w0.identityKeyPair.pub.length = 32)
    (ss : List Step) (hs : ∀ x ∈ ss, Step.Sane x) (hz : ∀ c ∈ callsOf ss, Sized c) (os : List (Outcome Reply)) (w' : World) :
    RunsIn w0 ss os w' ↔ os = Step.outcomes w0 ss ∧ w' = Step.after w0 ss :=
  runsIn_iff hC w0 hw hid [] (by intro x hx; cases hx) ss hs hz os w'

/-! ## Headers -/

omit C in
theorem SendInv.op {used : Address → ECPub → Prop} {L : List (Address × ECPub × Nat)} {w : World} (h : SendInv used L w)
    (o : StoreOp) : SendInv used L (o.next w) :=
  ⟨fun a r hr => h.recs a r (op_record hr), h.sent, h.disj, h.nodup⟩

omit C in
theorem PendingAll.op {P : Option PendingKeyExchangeS → Prop} {w : World} (h : PendingAll P w) (o : StoreOp) :
    PendingAll P (o.next w) := fun a r hr => h a r (op_record hr)

/-- What one call sends, and the invariant after it. -/
theorem SendInv.call (hC : C.Lawful) {used : Address → ECPub → Prop} {L : List (Address × ECPub × Nat)} {w : World}
    (h : SendInv used L w) {c : Call} (hs : SeedsOk c) (hn : ∀ k, NewKey w c k → ∀ a, ¬ used a k) :
    ∃ used', SendInv used' (L ++ sentMessages w [c]) (c.next w) ∧ ∀ a k, used' a k → used a k ∨ NewKey w c k := by
  have quiet : (∀ a pt, c ≠ .encrypt a pt) → sentMessages w [c] = [] →
      ∃ used', SendInv used' (L ++ sentMessages w [c]) (c.next w) ∧ ∀ a k, used' a k → used a k ∨ NewKey w c k := by
    intro hq he
    rw [he, List.append_nil]
    exact ⟨_, h.quiet hC hs hn hq, fun a k hk => hk.imp id And.right⟩
  cases c with
  | encrypt a pt =>
    cases hm : (SessionCipher.encrypt w a pt).result with
    | error e =>
      have he : sentMessages w [.encrypt a pt] = [] := by simp [sentMessages, hm]
      have hw : (Call.encrypt a pt).next w = w := (C16_encrypt_failed w a pt e hm).2
      rw [he, hw, List.append_nil]
      exact ⟨used, h, fun a k hk => .inl hk⟩
    | ok m =>
      have he : sentMessages w [.encrypt a pt] = [(a, m.inner.senderRatchetKey, m.inner.counter)] := by
        simp [sentMessages, hm]
      rw [he]
      exact ⟨used, h.encrypt hm, fun a k hk => .inl hk⟩
  | decryptMsg => exact quiet (by simp) (by simp [sentMessages])
  | decryptPkmsg => exact quiet (by simp) (by simp [sentMessages])
  | processBundle => exact quiet (by simp) (by simp [sentMessages])
  | processKeyExchange => exact quiet (by simp) (by simp [sentMessages])
  | initKeyExchange => exact quiet (by simp) (by simp [sentMessages])

theorem sentIn_nodup (hC : C.Lawful) : ∀ (ss : List Step) (w : World) (used : Address → ECPub → Prop)
    (L : List (Address × ECPub × Nat)) (old D I U : ECPub → Prop), SendInv used L w → (∀ a k, used a k → old k) →
    PendingAll (fun p => ∀ k, PendingKey p k → I k) w → (∀ k, old k → D k) → (∀ k, old k → I k → U k) →
    (∀ k, I k → D k) → (∀ c ∈ callsOf ss, SeedsOk c) → DrawnOnce D (callsOf ss) → AnsweredOnceIn U w ss →
    ((L ++ sentIn w ss).map Prod.snd).Nodup := by
  intro ss
  induction ss with
  | nil => intro w used L _ _ _ _ h _ _ _ _ _ _ _ _; simpa [sentIn] using h.nodup
  | cons x ss ih =>
    intro w used L old D I U h hall hp h1 h2 h3 hs hd ha
    cases x with
    | app o => exact ih (o.next w) used L old D I U (h.op o) hall (hp.op o) h1 h2 h3 hs hd ha
    | call c =>
      have hs0 : SeedsOk c := hs c (List.mem_cons_self ..)
      have hI : ∀ k, Answered w c k → I k := by
        intro k hk
        cases c with
        | encrypt | decryptMsg | decryptPkmsg | processBundle | initKeyExchange => exact hk.elim
        | processKeyExchange a m rnd =>
          obtain ⟨r, r', hr, _, _, hpk, _⟩ := hk
          exact (hp a r hr).1 k hpk
      have hnew : ∀ k, NewKey w c k → ¬ old k := by
        intro k hk ho
        rcases newKey_cases hC hs0 hk with hk | hk
        · exact hd.1 k hk (h1 k ho)
        · exact ha.1 k hk (h2 k ho (hI k hk))
      obtain ⟨used', hinv, hused⟩ := h.call hC hs0 (fun k hk a hu => hnew k hk (hall a k hu))
      show ((L ++ (sentMessages w [c] ++ sentIn (c.next w) ss)).map Prod.snd).Nodup
      rw [← List.append_assoc]
      have hasked : ∀ k, AskedWith c k → Drawn c k := by
        intro k hk
        cases c with
        | encrypt | decryptMsg | decryptPkmsg | processBundle | processKeyExchange => exact hk.elim
        | initKeyExchange => exact hk
      refine ih (c.next w) used' _ (fun k => old k ∨ NewKey w c k) (fun k => D k ∨ Drawn c k)
        (fun k => I k ∨ AskedWith c k) (fun k => U k ∨ Answered w c k) hinv
        (fun a k hk => (hused a k hk).imp (hall a k) id) (hp.asked hC hs0) ?_ ?_ ?_
        (fun d hm => hs d (List.mem_cons_of_mem _ hm)) hd.2 ha.2
      · rintro k (ho | hk)
        · exact .inl (h1 k ho)
        · rcases newKey_cases hC hs0 hk with hk | hk
          · exact .inr hk
          · exact .inl (h3 k (hI k hk))
      · rintro k (ho | hk) (hi | hi)
        · exact .inl (h2 k ho hi)
        · exact absurd (h1 k ho) (hd.1 k (hasked k hi))
        · rcases newKey_cases hC hs0 hk with hk | hk
          · exact absurd (h3 k hi) (hd.1 k hk)
          · exact .inr hk
        · cases c with
          | encrypt | decryptMsg | decryptPkmsg | processBundle | processKeyExchange => exact hi.elim
          | initKeyExchange => exact hk.elim
      · rintro k (hi | hi)
        · exact .inl (h3 k hi)
        · exact .inr (hasked k hi)

/-- **C63.** No header is sent twice, whatever the application does in between: if no ratchet key is drawn twice and no
key-exchange request of ours is answered twice, no two messages carry the same ratchet key and counter. -/
theorem C63_no_reuse (hC : C.Lawful) (w : World) (hw : w.NoSessions) (ss : List Step)
    (hseeds : ∀ c ∈ callsOf ss, SeedsOk c) (hdrawn : DrawnOnce (fun _ => False) (callsOf ss))
    (hans : AnsweredOnceIn (fun _ => False) w ss) : ((sentIn w ss).map Prod.snd).Nodup := by
  have h := sentIn_nodup hC ss w (fun _ _ => False) [] (fun _ => False) (fun _ => False) (fun _ => False) (fun _ => False)
    ⟨fun a r h => (by rw [hw a] at h; cases h), fun _ _ _ h => (by cases h), fun _ _ _ h => h.elim, by simp⟩
    (fun _ _ h => h) (fun a r h => by rw [hw a] at h; cases h) (fun _ h => h) (fun _ h => h.elim) (fun _ h => h)
    hseeds hdrawn hans
  simpa using h

/-! ## One-time prekeys -/

omit C in
theorem applyAll_removes {ws : List Write} {id : Nat} : ∀ {w : World}, .removePreKey id ∈ ws →
    (w.applyAll ws).preKeys id = none := by
  induction ws with
  | nil => intro w h; cases h
  | cons x ws ih =>
    intro w h
    by_cases hm : Write.removePreKey id ∈ ws
    · exact ih hm
    · rcases List.mem_cons.1 h with h | h
      · subst h
        have : ∀ (ws : List Write) (w : World), Write.removePreKey id ∉ ws → (w.applyAll ws).preKeys id = w.preKeys id := by
          intro ws
          induction ws with
          | nil => intro w _; rfl
          | cons y ws ih =>
            intro w hn
            show ((w.apply y).applyAll ws).preKeys id = _
            rw [ih _ (fun h => hn (List.mem_cons_of_mem _ h))]
            cases y with
            | session => rfl
            | identity => rfl
            | removePreKey i =>
              simp only [World.apply, upd]
              rw [if_neg]
              rintro rfl
              exact hn (List.mem_cons_self ..)
        show ((w.apply (.removePreKey id)).applyAll ws).preKeys id = none
        rw [this ws _ hm]
        simp [World.apply, upd]
      · exact absurd h hm

/-- A prekey that is used up was there, and is gone afterwards. -/
theorem used_preKey {w : World} {c : Call} {id : Nat} (h : .removePreKey id ∈ (c.run w).writes) :
    (w.preKeys id).isSome ∧ (c.next w).preKeys id = none := by
  refine ⟨?_, applyAll_removes h⟩
  cases c with
  | decryptPkmsg a m seed seeds =>
    have h' : .removePreKey id ∈ (SessionCipher.decryptPkmsg w a m seed seeds).writes := h
    obtain ⟨⟨pt, hpt⟩, hk, hid, hne⟩ := (C27_removed_iff w a m seed seeds id).1 h'
    cases hp : w.preKeys id with
    | some p => rfl
    | none =>
      obtain ⟨⟨e, he⟩, _⟩ := C27_consumed_refused w a m seed seeds id hid hp hk
      rw [he] at hpt
      cases hpt
  | encrypt b pt => obtain ⟨_, _, _, h2⟩ := encrypt_writes h; cases h2
  | decryptMsg b m seed seeds => obtain ⟨_, _, _, _, h2⟩ := decryptMsg_writes h; cases h2
  | processBundle b bu s1 s2 =>
    simp only [Call.run, Call.mapOutcome] at h
    obtain ⟨_, _, _, _, _, _, _, _, _, _, _, _, hws, _⟩ := processPreKeyBundle_writes h
    rw [hws] at h
    simp at h
  | processKeyExchange b m rnd =>
    simp only [Call.run, Call.mapOutcome] at h
    obtain ⟨_, _, _, _, _, _, hws⟩ := keyExchange_writes h
    rw [hws] at h
    simp at h
  | initKeyExchange b q s1 s2 s3 =>
    simp only [Call.run, Call.mapOutcome] at h
    obtain ⟨_, _, hws⟩ := initKeyExchange_writes h
    rw [hws] at h
    simp at h

/-- **C63.** A one-time prekey is used at most once for each time the application stored it: over any history, the number of
sessions set up with prekey `id` is at most the number of times the application stored a prekey under that id, plus one
if one was there at the start. -/
theorem C63_prekey_once (id : Nat) : ∀ (ss : List Step) (w : World),
    timesUsed id w ss ≤ timesStored id ss + (if (w.preKeys id).isSome then 1 else 0) := by
  intro ss
  induction ss with
  | nil => intro w; simp [timesUsed]
  | cons x ss ih =>
    intro w
    cases x with
    | call c =>
      have ih := ih (c.next w)
      simp only [timesUsed, timesStored]
      split
      · rename_i h
        obtain ⟨h1, h2⟩ := used_preKey h
        rw [h2] at ih
        rw [if_pos h1]
        simp only [Option.isSome_none, Bool.false_eq_true, if_false] at ih
        omega
      · cases hp : w.preKeys id with
        | some p =>
          simp only [Option.isSome_some, if_true]
          split at ih <;> omega
        | none =>
          have : (c.next w).preKeys id = none := C27_stays_removed [c] w id hp
          rw [this] at ih
          simpa using ih
    | app o =>
      have ih := ih (o.next w)
      simp only [timesUsed]
      have keep : (o.next w).preKeys id = w.preKeys id → timesStored id (.app o :: ss) = timesStored id ss →
          timesUsed id (o.next w) ss ≤ timesStored id (.app o :: ss) + (if (w.preKeys id).isSome then 1 else 0) := by
        intro h1 h2
        rw [h2, ← h1]
        exact ih
      cases o with
      | storePreKey i r =>
        simp only [timesStored]
        by_cases hi : i = id
        · subst hi
          have h : ((StoreOp.storePreKey i r).next w).preKeys i = some r := by simp [StoreOp.next, upd]
          rw [h] at ih
          simp only [if_true, Option.isSome_some] at ih ⊢
          omega
        · have h : ((StoreOp.storePreKey i r).next w).preKeys id = w.preKeys id := by
            simp only [StoreOp.next, upd]
            rw [if_neg (fun h => hi h.symm)]
          rw [h] at ih
          rw [if_neg hi]
          omega
      | removePreKey i =>
        simp only [timesStored]
        by_cases hi : id = i
        · have h : ((StoreOp.removePreKey i).next w).preKeys id = none := by simp [StoreOp.next, upd, hi]
          rw [h] at ih
          simp only [Option.isSome_none, Bool.false_eq_true, if_false] at ih
          omega
        · have h : ((StoreOp.removePreKey i).next w).preKeys id = w.preKeys id := by simp [StoreOp.next, upd, hi]
          rw [h] at ih
          exact ih
      | _ => exact keep rfl rfl

/-- A history in which the application does not store prekey `id` leaves it missing. -/
theorem steps_no_preKey (id : Nat) : ∀ (ss : List Step) (w : World), w.preKeys id = none → timesStored id ss = 0 →
    (Step.after w ss).preKeys id = none := by
  intro ss
  induction ss with
  | nil => intro w h _; exact h
  | cons x ss ih =>
    intro w h hs
    refine ih (x.next w) ?_ ?_
    · cases x with
      | call c => exact C27_stays_removed [c] w id h
      | app o =>
        cases o with
        | storePreKey i r =>
          simp only [timesStored] at hs
          have hi : i ≠ id := by
            intro h
            rw [if_pos h] at hs
            omega
          simp only [Step.next, StoreOp.next, upd]
          rw [if_neg (fun h => hi h.symm)]
          exact h
        | removePreKey i =>
          simp only [Step.next, StoreOp.next, upd]
          split
          · rfl
          · exact h
        | _ => exact h
    · cases x with
      | call c => exact hs
      | app o =>
        cases o with
        | storePreKey i r =>
          simp only [timesStored] at hs
          omega
        | _ => exact hs

/-- **C63.** Deleting a session does not bring its first message back to life: once a prekey message was accepted with a
one-time prekey, and unless the application stores a prekey under that id again, no prekey message naming it ever sets
up a session, whatever the application deleted; it is refused and nothing is written. -/
theorem C63_first_message_once (w : World) (a : Address) (m : PreKeyWhisperMessage) (seed : Bytes) (seeds : Nat → Bytes)
    (id : Nat) (h : .removePreKey id ∈ (SessionCipher.decryptPkmsg w a m seed seeds).writes) (ss : List Step)
    (hs : timesStored id ss = 0) (a' : Address) (m' : PreKeyWhisperMessage) (hm : m'.preKeyId = some id)
    (hk : ¬ alreadyKnown (Step.after ((SessionCipher.decryptPkmsg w a m seed seeds).final w) ss) a' m')
    (seed' : Bytes) (seeds' : Nat → Bytes) :
    let o := SessionCipher.decryptPkmsg (Step.after ((SessionCipher.decryptPkmsg w a m seed seeds).final w) ss) a' m' seed' seeds'
    (∃ e, o.result = .error e) ∧ o.writes = [] :=
  C27_consumed_refused _ a' m' seed' seeds' id hm
    (steps_no_preKey id ss _ (used_preKey (c := .decryptPkmsg a m seed seeds) h).2 hs) hk

/-! ## Replays -/

theorem usedUp_keptIn (hC : C.Lawful) {a : Address} {m : WhisperMessage} {w w' : World} {s s' : SessionState}
    (hk : KeptIn a m.senderRatchetKey w s w' s') (h : UsedUp m s) : UsedUp m s' := by
  induction hk with
  | refl => exact h
  | step _ _ _ hs hn ih =>
    exact ⟨goodChains_step hC ih.good hs, ready_step ih.ready hs, consumed_step hC ih.good hs ih.consumed hn⟩

/-- **C63.** Replays stay refused, whatever the application does in between, as long as the session that accepted the message
is kept with its receive chain and the states tried before it do not recognise the message. -/
theorem C63_replay (hC : C.Lawful) (w0 : World) (hw : w0.NoSessions) (ss : List Step) (a : Address)
    (m : WhisperMessage) (seed : Bytes) (seeds : Nat → Bytes) (pt : Bytes)
    (hacc : (SessionCipher.decryptMsg (Step.after w0 ss) a m seed seeds).result = .ok pt) :
    ∃ r1, ((SessionCipher.decryptMsg (Step.after w0 ss) a m seed seeds).final (Step.after w0 ss)).sessions a = some r1 ∧
      ∀ (w' : World) (s' : SessionS) (r' : SessionRecord) (pre post : List SessionS),
        KeptIn a m.senderRatchetKey
          ((SessionCipher.decryptMsg (Step.after w0 ss) a m seed seeds).final (Step.after w0 ss)) r1.sessionState w' s' →
        w'.sessions a = some r' → states r' = pre ++ s' :: post →
        (∀ p ∈ pre, ∀ seed, SessionCipher.decryptWithSessionState p m seed = .error .invalidMessage) →
        ∀ (seed' : Bytes) (seeds' : Nat → Bytes),
          SessionCipher.decryptMsg w' a m seed' seeds' = ⟨[], .error .duplicateMessage⟩ := by
  have hg : ((Step.after w0 ss).loadSession a).All GoodChains := by
    unfold World.loadSession
    cases h : (Step.after w0 ss).sessions a with
    | none => exact ⟨(goodChains_inv hC).empty, by intro s hs; cases hs⟩
    | some r => exact steps_all (goodChains_inv hC) w0 hw ss a r h
  obtain ⟨r1, h1, h2⟩ := decryptMsg_accepted hC hg hacc
  refine ⟨r1, h1, ?_⟩
  intro w' s' r' pre post hk hr hst hpre seed' seeds'
  exact replay_decryptMsg hr hst (usedUp_keptIn hC hk h2) hpre seed' seeds'

/-! ## Trust -/

/-- The identity a state talks to, if any, is one of `T`. -/
def TalksTo (T : ECPub → Prop) (s : SessionState) : Prop :=
  ∀ b, s.remoteIdentityPublic = some b → ∃ k, T k ∧ b = 5 :: k

omit C in
theorem TalksTo.same {T : ECPub → Prop} {s s' : SessionState} (h : TalksTo T s) (e : SameSession s s') : TalksTo T s' := by
  unfold TalksTo
  rw [e.2.2.1]
  exact h

omit C in
theorem TalksTo.empty (T : ECPub → Prop) : TalksTo T {} := fun b hb => by cases hb

theorem TalksTo.decrypt {T : ECPub → Prop} {r r' : SessionRecord} (h : r.All (TalksTo T)) {m : WhisperMessage} {seed : Bytes}
    {seeds : Nat → Bytes} {pt : Bytes} (hd : SessionCipher.decryptWithSessionRecord r m seed seeds = .ok (pt, r')) :
    r'.All (TalksTo T) := by
  rcases dwsr_ok hd with ⟨s, h1, rfl⟩ | ⟨_, k, p, s, hk, h1, _, rfl⟩
  · exact ⟨h.1.same (dwss_same h1).1, h.2⟩
  · refine SessionRecord.All.promote (r := { r with previousStates := r.previousStates.eraseIdx k }) ⟨h.1, ?_⟩
      ((h.2 p (List.mem_of_getElem? hk)).same (dwss_same h1).1)
    intro x hx
    exact h.2 x (List.mem_of_mem_eraseIdx hx)

omit C in
theorem TalksTo.archive {T : ECPub → Prop} {r : SessionRecord} (h : r.All (TalksTo T)) :
    (archiveUnlessFresh r).All (TalksTo T) := by
  unfold archiveUnlessFresh
  split
  · exact h.promote (TalksTo.empty T)
  · exact h

/-- A call only stores states that talk to identities talked to before, or to one that it saves. -/
theorem talksTo_written {T : ECPub → Prop} {w : World} {c : Call} {a : Address} {r' : SessionRecord}
    (hw : ∀ r, w.sessions a = some r → r.All (TalksTo T)) (h : .session a r' ∈ (c.run w).writes) :
    r'.All (TalksTo fun k => T k ∨ .identity a.1 k ∈ (c.run w).writes) := by
  have hload : (w.loadSession a).All (TalksTo fun k => T k ∨ .identity a.1 k ∈ (c.run w).writes) := by
    have weak : ∀ s, TalksTo T s → TalksTo (fun k => T k ∨ .identity a.1 k ∈ (c.run w).writes) s := by
      intro s hs b hb
      obtain ⟨k, h1, h2⟩ := hs b hb
      exact ⟨k, .inl h1, h2⟩
    unfold World.loadSession
    cases hr : w.sessions a with
    | none => exact ⟨TalksTo.empty _, by intro s hs; cases hs⟩
    | some r => exact ⟨weak _ (hw r hr).1, fun s hs => weak s ((hw r hr).2 s hs)⟩
  have fresh : ∀ (k : ECPub) (s : SessionState), .identity a.1 k ∈ (c.run w).writes →
      s.remoteIdentityPublic = some (5 :: k) → SessionRecord.All (TalksTo fun k => T k ∨ .identity a.1 k ∈ (c.run w).writes)
        ((archiveUnlessFresh (w.loadSession a)).setState s) := by
    intro k s hk e
    refine ⟨?_, (TalksTo.archive hload).2⟩
    intro b hb
    have hb : s.remoteIdentityPublic = some b := hb
    rw [e] at hb
    exact ⟨k, .inr hk, (Option.some.inj hb).symm⟩
  generalize hT : (fun k => T k ∨ .identity a.1 k ∈ (c.run w).writes) = T' at hload fresh ⊢
  cases c with
  | encrypt b pt =>
    obtain ⟨c, s, h1, h2⟩ := encrypt_writes h
    injection h2 with h2 h3
    subst h2; subst h3
    exact ⟨hload.1.same (ews_same h1).1, hload.2⟩
  | decryptMsg b m seed seeds =>
    obtain ⟨_, c, s, h1, h2⟩ := decryptMsg_writes h
    injection h2 with h2 h3
    subst h2; subst h3
    exact TalksTo.decrypt hload h1
  | decryptPkmsg b m seed seeds =>
    simp only [Call.run, Call.mapOutcome] at h
    rcases decryptPkmsg_cases w b m seed seeds with ⟨_, he⟩ | ⟨_, ⟨e, _, he⟩ | ⟨r, u, e, _, _, he⟩ | ⟨r, u, pt, r2, hv, hd, he⟩⟩
    · rw [he] at h; simp at h
    · rw [he] at h; simp at h
    · rw [he] at h; simp at h
    · rw [he] at h
      have : a = b ∧ r' = r2 := by
        cases u <;> simpa using h
      obtain ⟨rfl, rfl⟩ := this
      rcases processV3_ok hv with ⟨_, hx⟩ | ⟨_, spk, kp, ot, s0, s1, s2, _, _, _, _, h0, h1, h2, hx, _⟩
      · injection hx with hx _
        subst hx
        exact TalksTo.decrypt hload hd
      · simp only at hx
        subst hx
        rw [archive_load_state] at h0
        obtain ⟨_, _, rfl⟩ := initBob_ok h0
        obtain ⟨_, _, _, rfl⟩ := setLocalRegistrationId_ok h1
        obtain ⟨_, _, _, rfl⟩ := setRemoteRegistrationId_ok h2
        refine TalksTo.decrypt (fresh m.identityKey _ ?_ rfl) hd
        simp only [Call.run, Call.mapOutcome]
        rw [he]
        simp
  | processBundle b bu s1 s2 =>
    simp only [Call.run, Call.mapOutcome] at h
    obtain ⟨_, k, t0, t1, t2, t3, _, _, g0, g1, g2, g3, hwr, _⟩ := processPreKeyBundle_writes h
    rw [hwr] at h
    simp only [List.mem_cons, Write.session.injEq, List.not_mem_nil, or_false, reduceCtorEq] at h
    obtain ⟨rfl, rfl⟩ := h
    obtain ⟨_, _, _, _, _, rfl⟩ := initAlice_ok g0
    obtain ⟨_, _, _, _, _, _, _, rfl⟩ := setUnack_ok g1
    obtain ⟨_, _, _, rfl⟩ := setLocalRegistrationId_ok g2
    obtain ⟨_, _, _, rfl⟩ := setRemoteRegistrationId_ok g3
    refine fresh bu.identityKey _ ?_ rfl
    simp only [Call.run, Call.mapOutcome]
    rw [hwr]
    simp
  | processKeyExchange b m rnd =>
    simp only [Call.run, Call.mapOutcome] at h
    obtain ⟨_, p, s, hs, hth, _, hwr⟩ := keyExchange_writes h
    rw [hwr] at h
    simp only [List.mem_cons, Write.session.injEq, List.not_mem_nil, or_false, reduceCtorEq] at h
    obtain ⟨rfl, rfl⟩ := h
    refine fresh m.identityKey s ?_ (by rw [(sym_identities hs).1, hth])
    simp only [Call.run, Call.mapOutcome]
    rw [hwr]
    simp
  | initKeyExchange b q s1 s2 s3 =>
    simp only [Call.run, Call.mapOutcome] at h
    obtain ⟨s, hs, hwr⟩ := initKeyExchange_writes h
    rw [hwr] at h
    simp only [List.mem_singleton, Write.session.injEq] at h
    obtain ⟨rfl, rfl⟩ := h
    obtain ⟨_, rfl⟩ := setPending_ok hs
    exact ⟨hload.1, hload.2⟩

/-- At some point of the history, a call for a device of `n` saved the identity `k`, which the application trusted then. -/
def Spec.OnceTrusted (w0 : World) (ss : List Step) (n : String) (k : ECPub) : Prop :=
  ∃ before c after, ss = before ++ .call c :: after ∧ c.addr.1 = n ∧
    (Step.after w0 before).isTrusted n k = true ∧ .identity n k ∈ (c.run (Step.after w0 before)).writes

omit C in
theorem all_mono {P Q : SessionState → Prop} {r : SessionRecord} (h : r.All P) (hPQ : ∀ s, P s → Q s) : r.All Q :=
  ⟨hPQ _ h.1, fun s hs => hPQ s (h.2 s hs)⟩

theorem trusted_steps (w0 : World) (hw : w0.NoSessions) (ss : List Step) : ∀ a r, (Step.after w0 ss).sessions a = some r →
    r.All (TalksTo (OnceTrusted w0 ss a.1)) := by
  have key : ∀ n, ∀ a r, (Step.after w0 (ss.take n)).sessions a = some r →
      r.All (TalksTo (OnceTrusted w0 (ss.take n) a.1)) := by
    intro n
    induction n with
    | zero =>
      intro a r h
      have h : w0.sessions a = some r := h
      rw [hw a] at h
      cases h
    | succ n ih =>
      intro a r h
      cases hx : ss[n]? with
      | none =>
        have hl : ss.length ≤ n := by simpa using hx
        rw [List.take_of_length_le (by omega)] at h ⊢
        rw [List.take_of_length_le (by omega)] at ih
        exact ih a r h
      | some x =>
        obtain ⟨hl, hx⟩ := List.getElem?_eq_some_iff.1 hx
        rw [List.take_succ_eq_append_getElem hl, hx] at h ⊢
        have hnext : Step.after w0 (ss.take n ++ [x]) = x.next (Step.after w0 (ss.take n)) := by
          unfold Step.after
          rw [List.foldl_append]
          rfl
        rw [hnext] at h
        have weak : ∀ k, OnceTrusted w0 (ss.take n) a.1 k → OnceTrusted w0 (ss.take n ++ [x]) a.1 k := by
          rintro k ⟨b, c, d, h1, h2⟩
          exact ⟨b, c, d ++ [x], by rw [h1]; simp, h2⟩
        have wk : ∀ r : SessionRecord, r.All (TalksTo (OnceTrusted w0 (ss.take n) a.1)) →
            r.All (TalksTo (OnceTrusted w0 (ss.take n ++ [x]) a.1)) := fun r hr => all_mono hr (by
          intro s hs b hb
          obtain ⟨k, h1, h2⟩ := hs b hb
          exact ⟨k, weak k h1, h2⟩)
        cases x with
        | app o => exact wk r (ih a r (op_record h))
        | call c =>
          rcases applyAll_sessions (ws := (c.run (Step.after w0 (ss.take n))).writes) (w := Step.after w0 (ss.take n)) (a := a)
            with h1 | ⟨r', hm, h1⟩
          · exact wk r (ih a r (h1.symm.trans h))
          · have : r' = r := Option.some.inj (h1.symm.trans h)
            subst this
            refine all_mono (talksTo_written (ih a) hm) ?_
            intro s hs b hb
            obtain ⟨k, h1 | h1, h2⟩ := hs b hb
            · exact ⟨k, weak k h1, h2⟩
            · obtain ⟨h3, h4⟩ := C24_saved_identity_was_trusted _ c a.1 k h1
              exact ⟨k, ⟨ss.take n, c, [], rfl, h3.symm, h4, h1⟩, h2⟩
  have := key ss.length
  rw [List.take_length] at this
  exact this

/-- **C63.** However the application changes its mind about identities, every session it ever holds, current or archived, is
with an identity that it trusted, for that name, when a call set the session up. -/
theorem C63_trusted (w0 : World) (hw : w0.NoSessions) (ss : List Step) (a : Address) (r : SessionRecord)
    (h : (Step.after w0 ss).sessions a = some r) (s : SessionS) (hs : s ∈ states r) (b : Bytes)
    (hb : s.remoteIdentityPublic = some b) : ∃ k, OnceTrusted w0 ss a.1 k ∧ b = 5 :: k :=
  all_states (trusted_steps w0 hw ss a r h) hs b hb

/-! ## Stores that keep bytes -/

omit C in
/-- The application stores prekeys made by the constructors. -/
def Spec.StoresMade : Step → Prop
  | .app (.storePreKey _ p) => ∃ (id : Nat) (k : KeyPair), id < 2 ^ 32 ∧ k.pub.length = 32 ∧
      k.priv.length < 2 ^ 62 ∧ PreKeyRecord.mk' id k = .ok p
  | .app (.storeSignedPreKey _ p) => ∃ (id : Nat) (ts : Nat) (k : KeyPair) (sig : Bytes),
      id < 2 ^ 32 ∧ ts < 2 ^ 64 ∧ k.pub.length = 32 ∧ k.priv.length < 2 ^ 62 ∧ sig.length < 2 ^ 62 ∧
      SignedPreKeyRecord.mk' id ts k sig = .ok p
  | _ => True

/-- No session record stored during the history is 2^64 bytes long or longer. -/
def Spec.SmallSessionsIn (w : World) (ss : List Step) : Prop :=
  ∀ k a r, (Step.after w (ss.take k)).sessions a = some r → r.serialize.length < 2 ^ 64

omit C in
theorem op_toBytes (w : World) (o : StoreOp) : o.nextB w.toBytes = (o.next w).toBytes := by
  cases o with
  | storePreKey i r =>
    simp only [World.toBytes, StoreOp.nextB, StoreOp.next, ByteWorld.mk.injEq, true_and, and_true]
    funext b
    simp only [upd]
    split <;> rfl
  | removePreKey i =>
    simp only [World.toBytes, StoreOp.nextB, StoreOp.next, ByteWorld.mk.injEq, true_and, and_true]
    funext b
    simp only [upd]
    split <;> rfl
  | storeSignedPreKey i r =>
    simp only [World.toBytes, StoreOp.nextB, StoreOp.next, ByteWorld.mk.injEq, true_and]
    funext b
    simp only [upd]
    split <;> rfl
  | removeSignedPreKey i =>
    simp only [World.toBytes, StoreOp.nextB, StoreOp.next, ByteWorld.mk.injEq, true_and]
    funext b
    simp only [upd]
    split <;> rfl
  | saveIdentity n k => rfl
  | trust p => rfl
  | deleteSession a =>
    simp only [World.toBytes, StoreOp.nextB, StoreOp.next, ByteWorld.mk.injEq, true_and, and_true]
    funext b
    simp only [upd]
    split <;> rfl
  | deleteAllSessions n =>
    simp only [World.toBytes, StoreOp.nextB, StoreOp.next, ByteWorld.mk.injEq, true_and, and_true]
    funext b
    split <;> rfl
  | register k i => rfl

omit C in
theorem keysMade_op {w : World} (h : KeysMade w) {o : StoreOp} (ho : StoresMade (.app o)) : KeysMade (o.next w) := by
  cases o with
  | storePreKey i r =>
    refine ⟨?_, h.signedPreKeys⟩
    intro j p hp
    simp only [StoreOp.next, upd] at hp
    split at hp
    · cases hp; exact ho
    · exact h.preKeys j p hp
  | removePreKey i =>
    refine ⟨?_, h.signedPreKeys⟩
    intro j p hp
    simp only [StoreOp.next, upd] at hp
    split at hp
    · cases hp
    · exact h.preKeys j p hp
  | storeSignedPreKey i r =>
    refine ⟨h.preKeys, ?_⟩
    intro j p hp
    simp only [StoreOp.next, upd] at hp
    split at hp
    · cases hp; exact ho
    · exact h.signedPreKeys j p hp
  | removeSignedPreKey i =>
    refine ⟨h.preKeys, ?_⟩
    intro j p hp
    simp only [StoreOp.next, upd] at hp
    split at hp
    · cases hp
    · exact h.signedPreKeys j p hp
  | _ => exact ⟨h.preKeys, h.signedPreKeys⟩

/-- The replies of the calls of a history. -/
def Step.replies (w : World) (ss : List Step) : List (Res Reply) := (Step.outcomes w ss).map Outcome.result

theorem byteStore_steps (ss : List Step) : ∀ (w : World), KeysMade w → (∀ x ∈ ss, StoresMade x) →
    (∀ k a r, (Step.after w (ss.take k)).sessions a = some r → r.Ok ∧ r.serialize.length < 2 ^ 64) →
    Step.repliesB w.toBytes ss = Step.replies w ss ∧ Step.afterB w.toBytes ss = (Step.after w ss).toBytes ∧
    (Step.after w ss).toBytes.view = normal (Step.after w ss) := by
  induction ss with
  | nil =>
    intro w hk _ h
    exact ⟨rfl, rfl, view_toBytes hk (h 0)⟩
  | cons x ss ih =>
    intro w hk hm h
    cases x with
    | call c =>
      have hv : w.toBytes.view = normal w := view_toBytes hk (h 0)
      have hr : c.run w.toBytes.view = c.run w := by rw [hv, normal_run]
      have hn : c.nextB w.toBytes = (c.next w).toBytes := by
        unfold Call.nextB Call.next Outcome.final
        rw [hr, applyAll_toBytes]
      obtain ⟨h1, h2, h3⟩ := ih (c.next w) (keysMade_next hk c) (fun x hx => hm x (List.mem_cons_of_mem _ hx))
        (fun k a r hs => h (k + 1) a r hs)
      refine ⟨?_, ?_, h3⟩
      · show (c.run w.toBytes.view).result :: Step.repliesB (c.nextB w.toBytes) ss =
          (c.run w).result :: Step.replies (c.next w) ss
        rw [hr, hn, h1]
      · show Step.afterB (c.nextB w.toBytes) ss = (Step.after (c.next w) ss).toBytes
        rw [hn, h2]
    | app o =>
      obtain ⟨h1, h2, h3⟩ := ih (o.next w) (keysMade_op hk (hm _ (List.mem_cons_self ..)))
        (fun x hx => hm x (List.mem_cons_of_mem _ hx)) (fun k a r hs => h (k + 1) a r hs)
      refine ⟨?_, ?_, h3⟩
      · show Step.repliesB (o.nextB w.toBytes) ss = Step.replies (o.next w) ss
        rw [op_toBytes, h1]
      · show Step.afterB (o.nextB w.toBytes) ss = (Step.after (o.next w) ss).toBytes
        rw [op_toBytes, h2]

/-- **C63.** Stores that keep bytes behave like stores that keep records, also when the application works on them. -/
theorem C63_bytes (w : World) (hw : w.NoSessions) (hk : KeysMade w) (ss : List Step) (hm : ∀ x ∈ ss, StoresMade x)
    (hs : SmallSessionsIn w ss) :
    Step.repliesB w.toBytes ss = Step.replies w ss ∧ Step.afterB w.toBytes ss = (Step.after w ss).toBytes := by
  have h := byteStore_steps ss w hk hm fun k a r h => ⟨steps_all stateOk_inv w hw _ a r h, hs k a r h⟩
  exact ⟨h.1, h.2.1⟩

end

/-! ## The hypotheses are met -/

section
attribute [local instance] toy
open Example Spec

def Example.newPreKey : PreKeyRecord := match PreKeyRecord.mk' 32 (pair 32) with | .ok r => r | .error _ => {}
def Example.anyPolicy : (String → Option ECPub) → String → ECPub → Bool := fun _ _ _ => true

/-- Bob uploads a prekey, reads Alice's first message and answers, trusts everybody from now on, gets the first message once
more, deletes the session, registers anew, and gets the first message a third time. -/
def Example.bobSteps : List Step :=
  [.app (.storePreKey 32 newPreKey), .call (.decryptPkmsg aliceAddr firstPk (key 51) fun _ => key 52),
   .call (.encrypt aliceAddr [121, 111]), .app (.trust anyPolicy),
   .call (.decryptPkmsg aliceAddr firstPk (key 53) fun _ => key 54), .app (.deleteAllSessions "alice"),
   .app (.register (pair 9) 13), .call (.decryptPkmsg aliceAddr firstPk (key 55) fun _ => key 56)]

theorem Example.bobSteps_calls : ∀ c ∈ callsOf bobSteps, Sized c ∧ SeedsOk c := by
  intro c hc
  simp only [bobSteps, callsOf, List.mem_cons, List.not_mem_nil, or_false] at hc
  rcases hc with rfl | rfl | rfl | rfl <;> simp [Sized, SeedsOk, key]

theorem Example.bobSteps_sane : ∀ x ∈ bobSteps, Step.Sane x := by
  intro x hx
  simp only [bobSteps, List.mem_cons, List.not_mem_nil, or_false] at hx
  rcases hx with rfl | rfl | rfl | rfl | rfl | rfl | rfl | rfl <;> first | trivial | rfl

/-- `C63_history`: the specification says what that history does. -/
example : ∃ os w', RunsIn bob0 bobSteps os w' :=
  ⟨_, _, (C63_history toy_lawful bob0 (fun _ => rfl) rfl bobSteps bobSteps_sane (fun c hc => (bobSteps_calls c hc).1) _ _).2
    ⟨rfl, rfl⟩⟩

/-- The replies: the plaintext, a message, a duplicate, and a refusal because the prekey is gone. -/
example : (Step.replies bob0 bobSteps).map (fun x => match x with
    | .ok (.plaintext p) => some p | .ok _ => some []
    | .error e => if e = .duplicateMessage ∨ e = .invalidKeyId then none else some [0]) =
    [some [104, 105], some [], none, none] := by decide +kernel

/-- `C63_bounded` and `C63_trusted`: there is a session after the first five steps. -/
example : ∃ r, (Step.after bob0 (bobSteps.take 5)).sessions aliceAddr = some r ∧ r.previousStates.length ≤ 40 ∧
    ∃ k, OnceTrusted bob0 (bobSteps.take 5) "alice" k ∧ r.sessionState.remoteIdentityPublic = some (5 :: k) := by
  have h : ((Step.after bob0 (bobSteps.take 5)).sessions aliceAddr).any
      (fun r => r.sessionState.remoteIdentityPublic.isSome) = true := by decide +kernel
  cases hr : (Step.after bob0 (bobSteps.take 5)).sessions aliceAddr with
  | none => rw [hr] at h; cases h
  | some r =>
    rw [hr] at h
    cases hb : r.sessionState.remoteIdentityPublic with
    | none => simp [hb] at h
    | some b =>
      obtain ⟨k, h1, h2⟩ := C63_trusted bob0 (fun _ => rfl) _ aliceAddr r hr r.sessionState (List.mem_cons_self ..) b hb
      exact ⟨r, rfl, (C63_bounded toy_lawful bob0 (fun _ => rfl) _ aliceAddr r hr).1, k, h1, by rw [← h2]; exact hb⟩

/-- `C63_prekey_once`: prekey 31 is used once and was there once; the bound is met with equality. -/
example : timesUsed 31 bob0 bobSteps = 1 ∧ timesStored 31 bobSteps = 0 ∧ (bob0.preKeys 31).isSome ∧
    timesUsed 32 bob0 bobSteps = 0 ∧ timesStored 32 bobSteps = 1 := by
  refine ⟨by decide +kernel, rfl, rfl, by decide +kernel, rfl⟩

/-- `C63_first_message_once` applied to the deletion. -/
example :
    let w := Step.after bob1 [.app (.deleteSession aliceAddr)]
    let o := SessionCipher.decryptPkmsg w aliceAddr firstPk (key 53) fun _ => key 54
    (∃ e, o.result = .error e) ∧ o.writes = [] := by
  refine C63_first_message_once bob0 aliceAddr firstPk (key 51) (fun _ => key 52) 31 (by decide +kernel)
    [.app (.deleteSession aliceAddr)] rfl aliceAddr firstPk (by decide +kernel) ?_ (key 53) _
  exact fun h => absurd ((loaded_known _ _ _).2 h) (by decide +kernel)

/-- `C63_no_reuse`: a history of Alice with five messages, two of them after deleting the session and setting up a new one. -/
def Example.sendSteps : List Step :=
  [.call (.processBundle bobAddr bobBundle (key 41) (key 42)), .call (.encrypt bobAddr [104, 105]),
   .app (.deleteSession bobAddr), .call (.processBundle bobAddr bobBundle (key 45) (key 46)),
   .call (.encrypt bobAddr [104, 105]), .app (.saveIdentity "carol" (key 2)),
   .call (.processBundle ("carol", 1) bobBundle (key 47) (key 48)), .call (.encrypt ("carol", 1) [4]),
   .call (.encrypt ("carol", 1) [5]), .call (.encrypt bobAddr [1])]

example : ((sentIn alice0 sendSteps).map Prod.snd).Nodup ∧ (sentIn alice0 sendSteps).length = 5 := by
  refine ⟨C63_no_reuse toy_lawful alice0 (fun _ => rfl) sendSteps ?_ ?_ ?_, by decide +kernel⟩
  · intro c hc
    simp only [sendSteps, callsOf, List.mem_cons, List.not_mem_nil, or_false] at hc
    rcases hc with rfl | rfl | rfl | rfl | rfl | rfl | rfl | rfl <;> simp [SeedsOk, key]
  · simp only [sendSteps, callsOf, DrawnOnce, Drawn, toy_draw]
    refine ⟨by simp, by simp, ?_, by simp, ?_, by simp, by simp, by simp, trivial⟩
    all_goals
      intro k hk hold
      subst hk
      simp_all [key]
  · simp [sendSteps, AnsweredOnceIn, Answered]

theorem Example.trust_sessions (w : World) (p : (String → Option ECPub) → String → ECPub → Bool) :
    ((Step.app (.trust p)).next w).sessions = w.sessions := rfl

/-- `C63_replay`: Bob reads the third message and changes his policy; the message is refused the second time. -/
example : SessionCipher.decryptMsg
    ((Step.app (.trust anyPolicy)).next
      ((SessionCipher.decryptMsg (Step.after bob0 (bobSteps.take 3)) aliceAddr thirdMsg (key 53) fun _ => key 54).final
        (Step.after bob0 (bobSteps.take 3)))) aliceAddr thirdMsg (key 59) (fun _ => key 60) =
    ⟨[], .error .duplicateMessage⟩ := by
  obtain ⟨r1, h1, h2⟩ := C63_replay toy_lawful bob0 (fun _ => rfl) (bobSteps.take 3) aliceAddr thirdMsg (key 53)
    (fun _ => key 54) [51] (by decide +kernel)
  refine h2 _ r1.sessionState r1 [] r1.previousStates (.step .refl ?_ (List.mem_cons_self ..) .same ?_) ?_ rfl (by simp) (key 59) _
  · rw [trust_sessions]; exact h1
  · have : (((SessionCipher.decryptMsg (Step.after bob0 (bobSteps.take 3)) aliceAddr thirdMsg (key 53) fun _ => key 54).final
        (Step.after bob0 (bobSteps.take 3))).sessions aliceAddr).all
        (fun r => (recvChain r.sessionState thirdMsg.senderRatchetKey).isSome) = true := by decide +kernel
    rw [h1] at this
    intro hn
    simp [hn] at this
  · rw [trust_sessions]; exact h1

theorem Example.steps_other (a : Address) (ss : List Step) : ∀ (w : World), w.sessions a = none →
    (∀ c ∈ callsOf ss, c.addr ≠ a) → (Step.after w ss).sessions a = none := by
  induction ss with
  | nil => intro w h _; exact h
  | cons x ss ih =>
    intro w h hc
    cases x with
    | app o =>
      refine ih (o.next w) ?_ hc
      cases hr : (o.next w).sessions a with
      | none => rfl
      | some r => rw [op_record hr] at h; cases h
    | call c =>
      refine ih (c.next w) ?_ fun d hd => hc d (List.mem_cons_of_mem _ hd)
      rcases next_session w c a with h1 | ⟨r, _, h2, _⟩
      · rw [h1]; exact h
      · exact absurd h2.symm (hc c (List.mem_cons_self ..))

theorem Example.bobSteps_small : SmallSessionsIn bob0 bobSteps := by
  intro k a r h
  by_cases ha : a = aliceAddr
  · subst ha
    have hall : ∀ j : Fin 9, ((Step.after bob0 (bobSteps.take j)).sessions aliceAddr).all
        (fun r => decide (r.serialize.length < 2 ^ 64)) = true := by decide +kernel
    have hk : bobSteps.take k = bobSteps.take (min k 8) := by
      by_cases hk : k ≤ 8
      · rw [Nat.min_eq_left hk]
      · have hl : bobSteps.length = 8 := rfl
        rw [Nat.min_eq_right (by omega), List.take_of_length_le (by omega), List.take_of_length_le (by omega)]
    rw [hk] at h
    have hd := hall ⟨min k 8, by omega⟩
    simp only [h, Option.all_some] at hd
    exact of_decide_eq_true hd
  · rw [steps_other a _ bob0 rfl] at h
    · cases h
    · intro c hc
      have hin : .call c ∈ bobSteps.take k := by
        clear h
        generalize bobSteps.take k = ss at hc
        induction ss with
        | nil => cases hc
        | cons x ss ih =>
          cases x with
          | call d =>
            rcases List.mem_cons.1 hc with rfl | hc
            · exact List.mem_cons_self ..
            · exact List.mem_cons_of_mem _ (ih hc)
          | app o => exact List.mem_cons_of_mem _ (ih hc)
      have hin := callsOf_mem (List.mem_of_mem_take hin)
      simp only [bobSteps, callsOf, List.mem_cons, List.not_mem_nil, or_false] at hin
      rcases hin with rfl | rfl | rfl | rfl <;> exact fun e => ha e.symm

/-- `C63_bytes` applies to Bob's history. -/
example : Step.repliesB bob0.toBytes bobSteps = Step.replies bob0 bobSteps := by
  refine (C63_bytes bob0 (fun _ => rfl) bob0_keysMade bobSteps ?_ bobSteps_small).1
  intro x hx
  simp only [bobSteps, List.mem_cons, List.not_mem_nil, or_false] at hx
  rcases hx with rfl | rfl | rfl | rfl | rfl | rfl | rfl | rfl
  · exact ⟨32, pair 32, by decide, by decide, by decide, by decide +kernel⟩
  all_goals trivial

/-! ## What deleting a session does bring back -/

/-- A first message of Alice that names no one-time prekey. -/
def Example.lastResortPk : PreKeyWhisperMessage :=
  match (SessionCipher.encrypt
    ((SessionBuilder.processPreKeyBundle alice0 bobAddr bobBundle' (key 45) (key 46)).final alice0) bobAddr [104, 105]).result with
  | .ok (.preKey m) => m
  | _ => firstPk

/-- **C63.** `C63_first_message_once` needs the one-time prekey: a prekey message without one is accepted a second time after
the application deleted the session. -/
theorem C63_no_one_time_prekey : ∃ (w : World) (a : Address) (m : PreKeyWhisperMessage) (seed seed' : Bytes)
    (seeds seeds' : Nat → Bytes) (pt : Bytes), w.NoSessions ∧ m.preKeyId = none ∧
    (SessionCipher.decryptPkmsg w a m seed seeds).result = .ok pt ∧
    (SessionCipher.decryptPkmsg
      ((StoreOp.deleteSession a).next ((SessionCipher.decryptPkmsg w a m seed seeds).final w)) a m seed' seeds').result = .ok pt :=
  ⟨bob0, aliceAddr, lastResortPk, key 51, key 53, fun _ => key 52, fun _ => key 54, [104, 105], fun _ => rfl,
    by decide +kernel, by decide +kernel, by decide +kernel⟩

/-- **C63.** `C63_no_reuse` needs that the application never puts back a session it saved: if it does, two messages carry the
same ratchet key and counter. -/
theorem C63_restored_session : ∃ (w : World) (a : Address) (r : SessionRecord) (x y : Ciphertext),
    w.sessions a = some r ∧ (SessionCipher.encrypt w a [1]).result = .ok x ∧
    (SessionCipher.encrypt { (SessionCipher.encrypt w a [1]).final w with
      sessions := upd ((SessionCipher.encrypt w a [1]).final w).sessions a (some r) } a [2]).result = .ok y ∧
    x.inner.senderRatchetKey = y.inner.senderRatchetKey ∧ x.inner.counter = y.inner.counter ∧
    x.inner.ciphertext ≠ y.inner.ciphertext := by
  have h1 : ((SessionCipher.encrypt alice2 bobAddr [1]).result.toOption.isSome) = true := by decide +kernel
  have h2 : ((SessionCipher.encrypt { (SessionCipher.encrypt alice2 bobAddr [1]).final alice2 with
      sessions := upd ((SessionCipher.encrypt alice2 bobAddr [1]).final alice2).sessions bobAddr (alice2.sessions bobAddr) }
      bobAddr [2]).result.toOption.isSome) = true := by decide +kernel
  have h3 : (((SessionCipher.encrypt alice2 bobAddr [1]).result.toOption.bind fun x =>
      (SessionCipher.encrypt { (SessionCipher.encrypt alice2 bobAddr [1]).final alice2 with
        sessions := upd ((SessionCipher.encrypt alice2 bobAddr [1]).final alice2).sessions bobAddr (alice2.sessions bobAddr) }
        bobAddr [2]).result.toOption.map fun y =>
        decide (x.inner.senderRatchetKey = y.inner.senderRatchetKey ∧ x.inner.counter = y.inner.counter ∧
          x.inner.ciphertext ≠ y.inner.ciphertext)) = some true) := by decide +kernel
  have h4 : (alice2.sessions bobAddr).isSome = true := by decide +kernel
  cases hr : alice2.sessions bobAddr with
  | none => rw [hr] at h4; cases h4
  | some r =>
    rw [hr] at h2 h3
    cases hx : (SessionCipher.encrypt alice2 bobAddr [1]).result with
    | error e => rw [hx] at h1; cases h1
    | ok x =>
      cases hy : (SessionCipher.encrypt { (SessionCipher.encrypt alice2 bobAddr [1]).final alice2 with
          sessions := upd ((SessionCipher.encrypt alice2 bobAddr [1]).final alice2).sessions bobAddr (some r) }
          bobAddr [2]).result with
      | error e => rw [hy] at h2; cases h2
      | ok y =>
        rw [hx, hy] at h3
        have h3 := of_decide_eq_true (Option.some.inj h3)
        exact ⟨alice2, bobAddr, r, x, y, hr, hx, hy, h3⟩

end
end Axolotl
