import Verif.Props.Room
import Verif.Spec.GroupSecrecy

/-! What the members of a group keep. -/

namespace Axolotl
section
variable [C : Crypto]
open Spec
variable {M : Type} [DecidableEq M]

/-- The key ids in a record. -/
def stateIds (r : SenderKeyRecord) : List Nat := r.senderKeyStates.map fun s => s.senderKeyId.getD 0

/-- After its first state a record has the states that announcements have added, as they were. -/
structure GroupKept (owner : SenderKeyName → M) (S : M → GroupStore) (log : RoomLog M) (n : SenderKeyName) : Prop where
  tail : ∀ m, (S m n).senderKeyStates.tail =
    (if m = owner n then heardBy m n log else (heardBy m n log).tail).map addedState
  ids : ∀ m, ∀ i ∈ stateIds (S m n), ∀ j, (stateIds (S (owner n) n)).head? = some j → i = j
  heard : ∀ m, ∀ d ∈ heardBy m n log, ∃ k, AnnouncedAt n log k d
  first : (S (owner n) n).senderKeyStates ≠ [] → ∃ d, AnnouncedAt n log 0 d

omit C [DecidableEq M] in
theorem announced_later {n : SenderKeyName} {log : RoomLog M} {k : Nat} {d : SenderKeyDistributionMessage}
    (h : AnnouncedAt n log k d) (more : RoomLog M) : AnnouncedAt n (log ++ more) k d := by
  obtain ⟨pre, e, post, rnd, d0, h1, h2⟩ := h
  exact ⟨pre, e, post ++ more, rnd, d0, by rw [h1]; simp, h2⟩

/-- A call that changes at most the first state, and not its id. -/
theorem GroupKept.change {owner : SenderKeyName → M} {S : M → GroupStore} {log : RoomLog M} {n : SenderKeyName}
    (h : GroupKept owner S log n) (m : M) (c : GroupCall) (r : Res GroupReply)
    (ht : (c.next (S m) n).senderKeyStates.tail = (S m n).senderKeyStates.tail)
    (hi : stateIds (c.next (S m) n) = stateIds (S m n))
    (hh : ∀ x, heardBy x n [(⟨m, c, r⟩ : RoomEntry M)] = []) :
    GroupKept owner (fun x => if x = m then c.next (S m) else S x) (log ++ [⟨m, c, r⟩]) n := by
  have e : ∀ x, heardBy x n (log ++ [(⟨m, c, r⟩ : RoomEntry M)]) = heardBy x n log := by
    intro x; rw [heardBy_snoc, hh, List.append_nil]
  have hi' : ∀ x, stateIds ((if x = m then c.next (S m) else S x) n) = stateIds (S x n) := by
    intro x
    split
    · next hx => rw [hx, hi]
    · rfl
  refine ⟨?_, ?_, ?_, ?_⟩
  · intro x
    rw [e, ← h.tail x]
    split
    · next hx => rw [hx, ht]
    · rfl
  · intro x i hx j hj
    rw [hi'] at hx hj
    exact h.ids x i hx j hj
  · intro x d hd
    rw [e] at hd
    obtain ⟨k, hk⟩ := h.heard x d hd
    exact ⟨k, announced_later hk _⟩
  · intro hne
    obtain ⟨d, hd⟩ := h.first (fun q => hne (by
      have := hi' (owner n)
      unfold stateIds at this
      rw [q] at this
      exact List.map_eq_nil_iff.1 this))
    exact ⟨d, announced_later hd _⟩

theorem GroupKept.idle {owner : SenderKeyName → M} {S : M → GroupStore} {log : RoomLog M} {n : SenderKeyName}
    (h : GroupKept owner S log n) (m : M) (c : GroupCall) (r : Res GroupReply) (hS : c.next (S m) n = S m n)
    (hh : ∀ x, heardBy x n [(⟨m, c, r⟩ : RoomEntry M)] = []) :
    GroupKept owner (fun x => if x = m then c.next (S m) else S x) (log ++ [⟨m, c, r⟩]) n :=
  h.change m c r (by rw [hS]) (by rw [hS]) hh

omit C in
/-- In a record in which all ids are the same, the first state is found. -/
theorem found_first {r : SenderKeyRecord} {id j x : Nat} {s : SenderKeyState} (h : r.getStateById id = .ok (s, j))
    (hx : ∀ i ∈ stateIds r, i = x) : j = 0 ∧ sendingState r = some s := by
  have hs := (SenderKeyRecord.getStateById_ok h).2.1
  have hf := (SenderKeyRecord.getStateById_ok h).1
  have hid : s.senderKeyId.getD 0 = id := by
    unfold stateFor at hf
    have := List.find?_some hf
    simpa using this
  cases hl : r.senderKeyStates with
  | nil => rw [hl] at hs; cases hs
  | cons a l =>
    have ha : sendingState r = some a := by unfold sendingState; rw [hl]; rfl
    have e1 : a.senderKeyId.getD 0 = x := hx _ (by unfold stateIds; rw [hl]; simp)
    have e2 : s.senderKeyId.getD 0 = x :=
      hx _ (List.mem_map.2 ⟨s, List.mem_of_getElem? hs, rfl⟩)
    have h0 := SenderKeyRecord.getStateById_first ha
    rw [show SenderKeyState.getKeyId a = id from e1.trans (e2.symm.trans hid), h] at h0
    cases h0
    exact ⟨rfl, ha⟩

omit C in
theorem set_head {r : SenderKeyRecord} {s s' : SenderKeyState} (h : sendingState r = some s) (hi : s'.senderKeyId = s.senderKeyId) :
    (r.replace 0 s').senderKeyStates.tail = r.senderKeyStates.tail ∧ stateIds (r.replace 0 s') = stateIds r := by
  unfold sendingState at h
  unfold SenderKeyRecord.replace stateIds
  cases hl : r.senderKeyStates with
  | nil => rw [hl] at h; cases h
  | cons a l =>
    rw [hl] at h
    cases h
    simp [hi]

theorem GroupKept.step (hC : C.Lawful) {owner : SenderKeyName → M} {S : M → GroupStore} {log : RoomLog M} {n : SenderKeyName}
    (hv : RoomInv owner S log n) (h : GroupKept owner S log n) (m : M) (c : GroupCall)
    (hc : RoomAllowed owner log m c (c.run (S m)).result) :
    GroupKept owner (fun x => if x = m then c.next (S m) else S x) (log ++ [⟨m, c, (c.run (S m)).result⟩]) n := by
  by_cases hn : c.name = n
  rotate_left
  · refine h.idle m c _ (next_other _ _ _ hn) fun x => ?_
    cases c with
    | process n' d =>
      have hn : n' ≠ n := hn
      unfold heardBy
      cases ((GroupCall.process n' d).run (S m)).result with
      | error e => rfl
      | ok x => simp [hn]
    | decrypt => rfl
    | encrypt => rfl
    | create => rfl
  cases c with
  | encrypt n' pt rand =>
    have hn : n' = n := hn
    subst hn
    cases hr : (GroupCipher.encrypt (S m) n' pt rand).result with
    | error e => exact h.idle m _ _ (by rw [next_encrypt_error (GroupCipher.encrypt_error hr)]) fun _ => rfl
    | ok b =>
      obtain ⟨s, _, _, h1, _, _, _, _, h6⟩ := GroupCipher.encrypt_ok hr
      obtain ⟨k1, k2⟩ := set_head (s' := sentOn s) h1 rfl
      exact h.change m _ _ (by rw [next_encrypt h6, k1]) (by rw [next_encrypt h6, k2]) fun _ => rfl
  | decrypt n' b =>
    have hn : n' = n := hn
    subst hn
    cases hr : (GroupCipher.decrypt (S m) n' b).result with
    | error e => exact h.idle m _ _ (by rw [next_decrypt_error (GroupCipher.decrypt_error hr)]) fun _ => rfl
    | ok pt =>
      obtain ⟨x, s, j, pub, k, s', _, h2, _, _, h5, _, h7⟩ := GroupCipher.decrypt_ok hr
      have hid : ∃ y, ∀ i ∈ stateIds (S m n'), i = y := by
        rcases hv with hv | ⟨d0, hv⟩
        · exact ⟨0, fun i hi => by unfold stateIds at hi; rw [hv.states] at hi; cases hi⟩
        · obtain ⟨s0, hs0, _⟩ := hv.own
          refine ⟨s0.senderKeyId.getD 0, fun i hi => h.ids m i hi _ ?_⟩
          unfold sendingState at hs0
          unfold stateIds
          rw [List.head?_map, hs0]; rfl
      obtain ⟨y, hy⟩ := hid
      obtain ⟨rfl, hs⟩ := found_first h2 hy
      obtain ⟨k1, k2⟩ := set_head hs (getSenderKey_step h5).1.id
      exact h.change m _ _ (by rw [next_decrypt h7, k1]) (by rw [next_decrypt h7, k2]) fun _ => rfl
  | process n' d =>
    have hn : n' = n := hn
    subst hn
    obtain ⟨k, hk⟩ := hc
    rcases hv with hv | ⟨d0, hv⟩
    · exact absurd hk (hv.announced k d)
    · obtain ⟨q1, q2⟩ := hv.announced k d hk
      have hsm : d.id < 2 ^ 32 ∧ d.iteration < 2 ^ 32 :=
        ⟨by rw [q1.id]; exact hv.id, by rw [q1.it]; exact Nat.lt_of_le_of_lt q2 hv.small⟩
      have e0 : ((GroupCall.process n' d).run (S m)).result = .ok .done := by
        rw [run_process, process_good hsm.1 hsm.2]; rfl
      rw [e0]
      have hnext := next_process_good (g := S m) (n := n') hsm
      have e2 : ∀ x, x ≠ m → heardBy x n' (log ++ [(⟨m, .process n' d, .ok .done⟩ : RoomEntry M)]) = heardBy x n' log := by
        intro x hx; rw [heardBy_snoc]; simp [heardBy, Ne.symm hx]
      have e2' : heardBy m n' (log ++ [(⟨m, .process n' d, .ok .done⟩ : RoomEntry M)]) = heardBy m n' log ++ [d] := by
        rw [heardBy_snoc]; simp [heardBy]
      obtain ⟨s0, hs0, ho⟩ := hv.own
      have hne0 : (S (owner n') n').senderKeyStates ≠ [] := fun q => by
        rw [sendingState_none.2 q] at hs0; cases hs0
      have hhead : ∀ x, (stateIds (S x n')).head? = (sendingState (S x n')).map fun s => s.senderKeyId.getD 0 := by
        intro x; unfold stateIds sendingState; rw [List.head?_map]
      have hold : ∀ i, i ∈ stateIds (S m n') → i = d0.id := by
        intro i hi
        rw [← ho.id]
        exact h.ids m i hi _ (by rw [hhead, hs0]; rfl)
      have hids : stateIds ((GroupCall.process n' d).next (S m) n') = stateIds (S m n') ++ [d.id] := by
        rw [hnext]; unfold stateIds; simp [addedState]
      have hnew : ∀ x, ∀ i ∈ stateIds ((if x = m then (GroupCall.process n' d).next (S m) else S x) n'), i = d0.id := by
        intro x i hi
        split at hi
        · rw [hids] at hi
          rcases List.mem_append.1 hi with hi | hi
          · exact hold i hi
          · rw [List.mem_singleton.1 hi, q1.id]
        · rw [← ho.id]
          exact h.ids x i hi _ (by rw [hhead, hs0]; rfl)
      refine ⟨?_, ?_, ?_, ?_⟩
      · intro x
        by_cases hx : x = m
        · subst hx
          rw [if_pos rfl, e2', hnext]
          have ht := h.tail x
          by_cases hxo : x = owner n'
          · rw [if_pos hxo] at ht ⊢
            rw [hxo] at ht ⊢
            rw [List.tail_append_of_ne_nil hne0, ht, List.map_append]; rfl
          · rw [if_neg hxo] at ht ⊢
            cases hh : heardBy x n' log with
            | nil =>
              rw [(hv.member x hxo).unheard hh]; rfl
            | cons d1 rest =>
              have hne : (S x n').senderKeyStates ≠ [] := fun q => by
                obtain ⟨_, ⟨s, hs, _⟩, _⟩ := (hv.member x hxo).holds d1 rest hh
                unfold stateFor at hs
                rw [q] at hs
                cases hs
              rw [hh] at ht
              rw [List.tail_append_of_ne_nil hne, ht]
              simp
        · rw [if_neg hx, e2 x hx, h.tail x]
      · intro x i hi j hj
        rw [hnew x i hi]
        exact (hnew (owner n') j (List.mem_of_mem_head? hj)).symm
      · intro x d' hd'
        by_cases hx : x = m
        · subst hx
          rw [e2'] at hd'
          rcases List.mem_append.1 hd' with hd' | hd'
          · obtain ⟨k', hk'⟩ := h.heard x d' hd'
            exact ⟨k', announced_later hk' _⟩
          · rw [List.mem_singleton.1 hd']
            exact ⟨k, announced_later hk _⟩
        · rw [e2 x hx] at hd'
          obtain ⟨k', hk'⟩ := h.heard x d' hd'
          exact ⟨k', announced_later hk' _⟩
      · intro _
        obtain ⟨d', hd'⟩ := h.first hne0
        exact ⟨d', announced_later hd' _⟩
  | create n' rnd =>
    have hn : n' = n := hn
    subst hn
    obtain ⟨hm, hc2, hc3⟩ := hc
    subst hm
    by_cases hne : (S (owner n') n').senderKeyStates = []
    · by_cases hk : rnd.keyId < 2 ^ 32
      · rcases hv with hv | ⟨d0, hv⟩
        rotate_left
        · obtain ⟨s0, hs0, _⟩ := hv.own
          rw [sendingState_none.2 hne] at hs0; cases hs0
        have hpub : (C.genPub (C.genPriv rnd.signSeed)).length = 32 := hC.genPub_len _ (hC.genPriv_len _ hc3)
        obtain ⟨s, d, q1, _⟩ := C44_create_new (S (owner n')) n' rnd hk (Nat.le_of_eq hpub) hne
        have hrun := hv.create hC (owner := owner) hk hc2 hc3 q1
        have e0 : ((GroupCall.create n' rnd).run (S (owner n'))).result = .ok (.distribution d) := by
          rw [run_create]; unfold GroupCall.mapG; rw [q1]
        rw [e0]
        have hnext := next_create_new (rnd := rnd) hne hk
        have hh : ∀ x, heardBy x n' (log ++ [(⟨owner n', .create n' rnd, .ok (.distribution d)⟩ : RoomEntry M)]) = [] := by
          intro x; rw [heardBy_snoc, hv.heard]; rfl
        refine ⟨?_, ?_, ?_, ?_⟩
        · intro x
          rw [hh]
          split
          · next hx => rw [hnext]; rfl
          · rw [hv.states x]; rfl
        · intro x i hi j hj
          rw [if_pos rfl, hnext] at hj
          split at hi
          · rw [hnext] at hi
            cases hj
            exact List.mem_singleton.1 hi
          · unfold stateIds at hi
            rw [hv.states x] at hi
            cases hi
        · intro x d' hd'
          rw [hh] at hd'; cases hd'
        · intro _
          have hs : sendingState ({ senderKeyStates := [createdState rnd] } : SenderKeyRecord) = some (createdState rnd) := rfl
          have hp : SenderKeyState.getSigningKeyPublic (createdState rnd) = .ok (C.genPub (C.genPriv rnd.signSeed)) := by
            unfold SenderKeyState.getSigningKeyPublic
            exact decodePoint_serializePoint (Nat.le_of_eq hpub)
          rw [create_new_result hne hk] at q1
          have hcr := distribution_made hs hp q1
          have hl : rnd.senderKey.length < 2 ^ 63 := by omega
          obtain ⟨d2, r1, r2, _⟩ := C05_distribution_roundtrip rnd.keyId 0 hk (Nat.two_pow_pos 32) rnd.senderKey hl _ hpub
          have := Except.ok.inj (hcr.symm.trans r1)
          subst this
          exact ⟨d, log, _, [], rnd, d, rfl, rfl, rfl, r2, by rw [hv.sent]; rfl⟩
      · exact h.idle _ _ _ (by rw [next_create_bad hne hk]) fun _ => rfl
    · exact h.idle _ _ _ (by rw [next_create_again hne]) fun _ => rfl

theorem Spec.RoomReach.kept (hC : C.Lawful) {owner : SenderKeyName → M} {S : M → GroupStore} {log : RoomLog M}
    (h : RoomReach owner S log) (n : SenderKeyName) : GroupKept owner S log n := by
  induction h with
  | start =>
    refine ⟨fun m => ?_, fun m i hi => (nomatch hi), fun m d hd => (nomatch hd), fun h => absurd rfl h⟩
    show ([] : List SenderKeyState) = _
    split <;> rfl
  | call m c h hc ih => exact ih.step hC (h.inv hC n) m c hc

end
end Axolotl
