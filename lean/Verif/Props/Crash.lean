import Verif.Proofs.SeedFree
import Verif.Props.PreKeys
import Verif.Example

/-!
# C32: crashes

A crash state is what is left when only the first `n` writes of a call were performed.
-/

namespace Axolotl
section
variable [C : Crypto]
open SessionState SessionBuilder Spec

/-- The stores when the process dies after `n` store writes of a call. -/
def Spec.crashed (w : World) (c : Call) (n : Nat) : World := ((c.run w).writes.take n).foldl World.apply w

/-- The two ways a call's list of writes can look to one address: no session write, or exactly one. -/
theorem one_session_write (w : World) (c : Call) (a : Address) :
    (∀ r, .session a r ∉ (c.run w).writes) ∨
    ∃ pre r post, (c.run w).writes = pre ++ .session a r :: post ∧ (∀ r, .session a r ∉ pre) ∧ ∀ r, .session a r ∉ post := by
  by_cases hr : ∃ r, .session a r ∈ (c.run w).writes
  · obtain ⟨r, hr⟩ := hr
    right
    cases c with
    | encrypt b pt =>
      have h0 : ∃ s, (Call.run w (.encrypt b pt)).writes = [.session b s] := by
        simp only [Call.run, Call.mapOutcome] at hr ⊢
        unfold SessionCipher.encrypt at hr ⊢
        obtain ⟨ws, c, h1, _⟩ := Outcome.ofRes_writes hr
        rw [h1]
        obtain ⟨y, _, h2⟩ := bind_eq_ok.1 h1
        replace h2 := Except.ok.inj h2
        injection h2 with h2 _
        exact ⟨_, h2.symm⟩
      obtain ⟨s, h0⟩ := h0
      rw [h0] at hr ⊢
      simp only [List.mem_singleton, Write.session.injEq] at hr
      obtain ⟨rfl, rfl⟩ := hr
      exact ⟨[], r, [], rfl, by simp, by simp⟩
    | decryptMsg b m seed seeds =>
      have h0 : ∃ s, (Call.run w (.decryptMsg b m seed seeds)).writes = [.session b s] := by
        simp only [Call.run, Call.mapOutcome] at hr ⊢
        unfold SessionCipher.decryptMsg at hr ⊢
        obtain ⟨ws, c, h1, _⟩ := Outcome.ofRes_writes hr
        rw [h1]
        split at h1
        · cases h1
        · obtain ⟨y, _, h2⟩ := bind_eq_ok.1 h1
          replace h2 := Except.ok.inj h2
          injection h2 with h2 _
          exact ⟨_, h2.symm⟩
      obtain ⟨s, h0⟩ := h0
      rw [h0] at hr ⊢
      simp only [List.mem_singleton, Write.session.injEq] at hr
      obtain ⟨rfl, rfl⟩ := hr
      exact ⟨[], r, [], rfl, by simp, by simp⟩
    | decryptPkmsg b m seed seeds =>
      simp only [Call.run, Call.mapOutcome] at hr ⊢
      rcases decryptPkmsg_cases w b m seed seeds with ⟨_, he⟩ | ⟨_, ⟨e, _, he⟩ | ⟨r, u, e, _, _, he⟩ | ⟨r1, u, pt, r2, hv, hd, he⟩⟩
      · rw [he] at hr; simp at hr
      · rw [he] at hr; simp at hr
      · rw [he] at hr; simp at hr
      · rw [he] at hr ⊢
        have : a = b ∧ r = r2 := by
          cases u <;> simpa using hr
        obtain ⟨rfl, rfl⟩ := this
        refine ⟨[.identity a.1 m.identityKey], r, (u.map Write.removePreKey).toList, rfl, by simp, ?_⟩
        intro r'
        cases u <;> simp
    | processBundle b bu s1 s2 =>
      simp only [Call.run, Call.mapOutcome] at hr ⊢
      obtain ⟨_, k, s0, s1, s2, s3, _, _, _, _, _, _, hw, _⟩ := processPreKeyBundle_writes hr
      rw [hw] at hr ⊢
      simp only [List.mem_cons, Write.session.injEq, List.not_mem_nil, or_false, reduceCtorEq] at hr
      obtain ⟨rfl, rfl⟩ := hr
      exact ⟨[], _, _, rfl, by simp, by simp⟩
    | processKeyExchange b m rnd =>
      simp only [Call.run, Call.mapOutcome, processKeyExchangeMessage] at hr ⊢
      split at hr
      · simp at hr
      · split at hr
        · rename_i h1 h2
          rw [if_neg h1, if_pos h2]
          obtain ⟨_, p, s, hs, _, _, _, hw⟩ := processInitiate_writes hr
          rw [hw] at hr ⊢
          simp only [List.mem_cons, Write.session.injEq, List.not_mem_nil, or_false, reduceCtorEq] at hr
          obtain ⟨rfl, rfl⟩ := hr
          exact ⟨[], _, _, rfl, by simp, by simp⟩
        · rename_i h1 h2
          rw [if_neg h1, if_neg h2]
          obtain ⟨_, _, _, p, s, hs, _, _, _, _, _, _, hw⟩ := processResponse_writes hr
          rw [hw] at hr ⊢
          simp only [List.mem_cons, Write.session.injEq, List.not_mem_nil, or_false, reduceCtorEq] at hr
          obtain ⟨rfl, rfl⟩ := hr
          exact ⟨[], _, _, rfl, by simp, by simp⟩
    | initKeyExchange b q s1 s2 s3 =>
      simp only [Call.run, Call.mapOutcome] at hr ⊢
      obtain ⟨s, hs, hw⟩ := initKeyExchange_writes hr
      rw [hw] at hr ⊢
      simp only [List.mem_singleton, Write.session.injEq] at hr
      obtain ⟨rfl, rfl⟩ := hr
      exact ⟨[], _, [], rfl, by simp, by simp⟩
  · exact Or.inl fun r h => hr ⟨r, h⟩

omit C in
theorem applyAll_no_session {ws : List Write} {w : World} {a : Address} (h : ∀ r, .session a r ∉ ws) :
    (w.applyAll ws).sessions a = w.sessions a := by
  rcases applyAll_sessions (ws := ws) (w := w) (a := a) with h1 | ⟨r, hr, _⟩
  · exact h1
  · exact absurd hr (h r)

omit C in
theorem applyAll_append (w : World) (l l' : List Write) : w.applyAll (l ++ l') = (w.applyAll l).applyAll l' := by
  unfold World.applyAll
  exact List.foldl_append

/-- **C32.** Whatever call is interrupted wherever, each session in the store is the old or the new one. -/
theorem C32_session_old_or_new_partial (w : World) (c : Call) (n : Nat) (a : Address) :
    (crashed w c n).sessions a = w.sessions a ∨ (crashed w c n).sessions a = (c.next w).sessions a := by
  show (w.applyAll _).sessions a = _ ∨ (w.applyAll _).sessions a = (w.applyAll _).sessions a
  rcases one_session_write w c a with h | ⟨pre, r, post, he, hpre, hpost⟩
  · left
    exact applyAll_no_session fun r hr => h r (List.mem_of_mem_take hr)
  · rw [he]
    by_cases hn : n ≤ pre.length
    · left
      refine applyAll_no_session fun r' hr => ?_
      rw [List.take_append_of_le_length hn] at hr
      exact hpre r' (List.mem_of_mem_take hr)
    · right
      obtain ⟨k, hk⟩ : ∃ k, n = pre.length + (k + 1) := ⟨n - pre.length - 1, by omega⟩
      have htake : (pre ++ .session a r :: post).take n = pre ++ .session a r :: post.take k := by
        rw [hk, List.take_length_add_append]
        rfl
      have hsess : ∀ l : List Write, (∀ r, .session a r ∉ l) →
          (w.applyAll (pre ++ .session a r :: l)).sessions a = some r := by
        intro l hl
        rw [applyAll_append]
        show (((w.applyAll pre).apply (.session a r)).applyAll l).sessions a = _
        rw [applyAll_no_session hl]
        simp [World.apply, upd]
      rw [htake, hsess _ fun r' hr => hpost r' (List.mem_of_mem_take hr), hsess _ hpost]

/-- **C32.** If the process dies before the session is stored, delivering the same prekey message again, with any new
randomness, gives the same plaintext — provided the application still trusts the identity it has saved. -/
theorem C32_redelivery_partial (hC : C.Lawful) (w : World) (a : Address) (m : PreKeyWhisperMessage) (seed : Bytes)
    (seeds : Nat → Bytes) (pt : Bytes) (h : (SessionCipher.decryptPkmsg w a m seed seeds).result = .ok pt)
    (hs : seed.length = 32) (hss : ∀ i, (seeds i).length = 32) (n : Nat)
    (hdead : ∀ r, .session a r ∉ ((SessionCipher.decryptPkmsg w a m seed seeds).writes.take n))
    (htrust : (crashed w (.decryptPkmsg a m seed seeds) n).policy
      (crashed w (.decryptPkmsg a m seed seeds) n).identities a.1 m.identityKey = true)
    (seed' : Bytes) (seeds' : Nat → Bytes) (hs' : seed'.length = 32) (hss' : ∀ i, (seeds' i).length = 32) :
    (SessionCipher.decryptPkmsg (crashed w (.decryptPkmsg a m seed seeds) n) a m seed' seeds').result = .ok pt := by
  rcases decryptPkmsg_cases w a m seed seeds with ⟨_, he⟩ | ⟨_, ⟨e, _, he⟩ | ⟨r, u, e, _, _, he⟩ | ⟨r, u, pt', r2, hv, hd, he⟩⟩
  · rw [he] at h; cases h
  · rw [he] at h; cases h
  · rw [he] at h; cases h
  · rw [he] at h hdead
    replace h := Except.ok.inj h
    subst h
    have hn : n ≤ 1 := by
      apply Classical.byContradiction
      intro hn
      obtain ⟨k, rfl⟩ : ∃ k, n = k + 2 := ⟨n - 2, by omega⟩
      exact hdead r2 (by simp)
    generalize hw1 : crashed w (.decryptPkmsg a m seed seeds) n = w1 at htrust ⊢
    have hw : w1 = { w with identities := w1.identities } := by
      rw [← hw1]
      show w.applyAll ((SessionCipher.decryptPkmsg w a m seed seeds).writes.take n) =
        { w with identities := (w.applyAll ((SessionCipher.decryptPkmsg w a m seed seeds).writes.take n)).identities }
      rw [he]
      match n, hn with
      | 0, _ => rfl
      | 1, _ => rfl
    have hload : w1.loadSession a = w.loadSession a := by
      rw [hw]; rfl
    have hv1 : processV3 w1 (w1.loadSession a) m = .ok (r, u) := by
      rw [hload, ← hv, hw]
      rfl
    have hd1 := dwsr_seed hC r m.message hs hs' hss hss'
    rw [hd] at hd1
    rcases decryptPkmsg_cases w1 a m seed' seeds' with ⟨ht, _⟩ | ⟨_, ⟨e, hv2, _⟩ | ⟨r', u', e, hv2, hd2, _⟩ | ⟨r', u', pt2, r3, hv2, hd2, he2⟩⟩
    · unfold World.isTrusted at ht
      rw [htrust] at ht; cases ht
    · rw [hv1] at hv2; cases hv2
    · rw [hv1] at hv2
      injection hv2 with hv2
      injection hv2 with hv2 _
      subst hv2
      rw [hd2] at hd1
      cases hd1
    · rw [hv1] at hv2
      injection hv2 with hv2
      injection hv2 with hv2 _
      subst hv2
      rw [hd2] at hd1
      have : pt' = pt2 := by simpa [Except.map] using hd1
      rw [he2, this]

omit C in
theorem promote_keeps_current {r : SessionRecord} {s : SessionState} :
    r.sessionState ∈ (r.promoteState s).previousStates := by
  unfold SessionRecord.promoteState
  simp only
  split
  · rename_i h
    cases hp : r.previousStates with
    | nil => rw [hp] at h; simp [SessionRecord.ARCHIVED_STATES_MAX_LENGTH] at h
    | cons x l => simp
  · simp

/-- A freshly set up session is known after the decryption that follows. -/
theorem known_after {r r' : SessionRecord} {m : WhisperMessage} {seed pt : Bytes} {seeds : Nat → Bytes} {k : ECPub}
    (hv : r.sessionState.sessionVersion = some 3) (hk : r.sessionState.aliceBaseKey = some (5 :: k))
    (hd : SessionCipher.decryptWithSessionRecord r m seed seeds = .ok (pt, r')) : knowsBaseKey r' 3 k := by
  rcases dwsr_ok hd with ⟨s, h1, h2⟩ | ⟨_, j, p, s, h1, h2, _, h4⟩
  · subst h2
    obtain ⟨⟨hv', _, _, hk', _⟩, _⟩ := dwss_same h1
    refine ⟨s, List.mem_cons_self .., ?_, ?_⟩
    · rw [hv', hv]; rfl
    · rw [hk', hk]; rfl
  · subst h4
    refine ⟨r.sessionState, List.mem_cons_of_mem _ ?_, ?_, ?_⟩
    · exact promote_keeps_current (r := { r with previousStates := r.previousStates.eraseIdx j })
    · rw [hv]; rfl
    · rw [hk]; rfl

/-- **The last clause of C32 is false, always**: if the process dies after storing the session and before removing
the one-time prekey, then redelivering the message never removes it. -/
theorem C32_prekey_left_behind (w : World) (a : Address) (m : PreKeyWhisperMessage) (seed : Bytes)
    (seeds : Nat → Bytes) (pt : Bytes) (h : (SessionCipher.decryptPkmsg w a m seed seeds).result = .ok pt)
    (hv3 : m.version = 3) (id : Nat) (hnew : ¬ alreadyKnown w a m) (seed' : Bytes) (seeds' : Nat → Bytes) :
    ((SessionCipher.decryptPkmsg (crashed w (.decryptPkmsg a m seed seeds) 2) a m seed' seeds').final
      (crashed w (.decryptPkmsg a m seed seeds) 2)).preKeys id = w.preKeys id := by
  rcases decryptPkmsg_cases w a m seed seeds with ⟨_, he⟩ | ⟨_, ⟨e, _, he⟩ | ⟨r, u, e, _, _, he⟩ | ⟨r, u, pt', r2, hv, hd, he⟩⟩
  · rw [he] at h; cases h
  · rw [he] at h; cases h
  · rw [he] at h; cases h
  · have hw2 : crashed w (.decryptPkmsg a m seed seeds) 2 =
        w.applyAll [.identity a.1 m.identityKey, .session a r2] := by
      show w.applyAll ((SessionCipher.decryptPkmsg w a m seed seeds).writes.take 2) = _
      rw [he]
      rfl
    rw [hw2]
    generalize hww : w.applyAll [.identity a.1 m.identityKey, .session a r2] = w2
    have hknown : alreadyKnown w2 a m := by
      refine ⟨r2, ?_, ?_⟩
      · rw [← hww]; simp [World.applyAll, World.apply, upd]
      · rw [hv3]
        rcases processV3_ok hv with ⟨hk, _⟩ | ⟨_, spk, kp, ot, s0, s1, s2, _, _, _, _, h0, h1, h2, hx, _⟩
        · exact absurd ((loaded_known w a m).1 hk) hnew
        · simp only at hx
          subst hx
          rw [archive_load_state] at h0
          refine known_after ?_ ?_ hd
          · exact (created_shape (.bob (k := Curve.serializePoint m.baseKey) h0 h1 h2)).1
          · rfl
    show (w2.applyAll _).preKeys id = _
    rw [applyAll_preKeys, if_neg]
    · rw [← hww]; rfl
    · intro hm
      exact ((C27_removed_iff w2 a m seed' seeds' id).1 hm).2.1 hknown

end

/-! ## Examples -/

namespace Example
attribute [local instance] toy
open Spec

/-- Bob dies while reading Alice's first message. -/
def bobDies (n : Nat) : World := crashed bob0 (.decryptPkmsg aliceAddr firstPk (key 51) (fun _ => key 52)) n

/-- Before the session is stored: the message can be read again. -/
example : (SessionCipher.decryptPkmsg (bobDies 1) aliceAddr firstPk (key 53) (fun _ => key 54)).result = .ok [104, 105] :=
  C32_redelivery_partial toy_lawful bob0 aliceAddr firstPk (key 51) (fun _ => key 52) [104, 105] bobGot_ok (by decide)
    (by intro; decide) 1 (by
      intro r hr
      have h2 : ((SessionCipher.decryptPkmsg bob0 aliceAddr firstPk (key 51) (fun _ => key 52)).writes.take 1).map
        (fun x => match x with | .session .. => true | _ => false) = [false] := by decide +kernel
      have := List.mem_map_of_mem (f := fun x => match x with | .session .. => true | _ => false) hr
      rw [h2] at this
      simp at this) (by decide +kernel) (key 53) (fun _ => key 54) (by decide) (by intro; decide)

/-- **C32 is false**: after the session is stored, redelivery is answered but the one-time prekey stays. -/
theorem C32_false :
    ((SessionCipher.decryptPkmsg bob0 aliceAddr firstPk (key 51) (fun _ => key 52)).final bob0).preKeys 31 = none ∧
    ((SessionCipher.decryptPkmsg (bobDies 2) aliceAddr firstPk (key 53) (fun _ => key 54)).final (bobDies 2)).preKeys 31 =
      some bobPreKey := by
  decide +kernel

end Example
end Axolotl
