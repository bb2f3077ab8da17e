import Verif.Proofs.Stored
import Verif.Example

/-! # C50: running against stores that keep bytes is running against stores that keep records -/

namespace Axolotl
section
variable [C : Crypto]
open Spec Wire

namespace Spec

/-- Every stored prekey and signed prekey was made by its constructor from a 32-byte public key and sensibly small
private key and signature. -/
structure KeysMade (w : World) : Prop where
  preKeys : ∀ i p, w.preKeys i = some p → ∃ (id : Nat) (k : KeyPair), id < 2 ^ 32 ∧ k.pub.length = 32 ∧
    k.priv.length < 2 ^ 62 ∧ PreKeyRecord.mk' id k = .ok p
  signedPreKeys : ∀ i p, w.signedPreKeys i = some p → ∃ (id : Nat) (ts : Nat) (k : KeyPair) (sig : Bytes),
    id < 2 ^ 32 ∧ ts < 2 ^ 64 ∧ k.pub.length = 32 ∧ k.priv.length < 2 ^ 62 ∧ sig.length < 2 ^ 62 ∧
    SignedPreKeyRecord.mk' id ts k sig = .ok p

/-- No session record stored during the history is 2^64 bytes long or longer. -/
def SmallSessions (w : World) (cs : List Call) : Prop :=
  ∀ k a r, (Call.after w (cs.take k)).sessions a = some r → r.serialize.length < 2 ^ 64

/-- No group record stored during the history is 2^64 bytes long or longer. -/
def SmallGroups (g : GroupStore) (cs : List GroupCall) : Prop :=
  ∀ k n, (GroupCall.after g (cs.take k) n).serialize.length < 2 ^ 64

end Spec

omit C in
theorem apply_toBytes (w : World) (x : Write) : w.toBytes.apply x = (w.apply x).toBytes := by
  cases x with
  | session a r =>
    simp only [World.toBytes, ByteWorld.apply, World.apply, ByteWorld.mk.injEq, true_and, and_true]
    funext b
    simp only [upd]
    split <;> rfl
  | identity n k => rfl
  | removePreKey i =>
    simp only [World.toBytes, ByteWorld.apply, World.apply, ByteWorld.mk.injEq, true_and, and_true]
    funext b
    simp only [upd]
    split <;> rfl

omit C in
theorem applyAll_toBytes (ws : List Write) (w : World) : ws.foldl ByteWorld.apply w.toBytes = (w.applyAll ws).toBytes := by
  unfold World.applyAll
  induction ws generalizing w with
  | nil => rfl
  | cons x ws ih => simp only [List.foldl_cons, apply_toBytes, ih]

omit C in
theorem view_toBytes {w : World} (hk : KeysMade w) (hs : ∀ a r, w.sessions a = some r → r.Ok ∧ r.serialize.length < 2 ^ 64) :
    w.toBytes.view = normal w := by
  simp only [World.toBytes, ByteWorld.view, normal, World.mk.injEq, true_and]
  refine ⟨?_, ?_, ?_⟩
  · funext a
    cases h : w.sessions a with
    | none => rfl
    | some r =>
      simp only [Option.map_some, ByteWorld.parsed]
      rw [C06_session_record_roundtrip r (hs a r h).1 (hs a r h).2]
  · funext i
    cases h : w.preKeys i with
    | none => rfl
    | some p =>
      obtain ⟨id, k, h1, h2, h3, h4⟩ := hk.preKeys i p h
      obtain ⟨p', h5, h6, _⟩ := C07_prekey_roundtrip id h1 k h2 (by omega)
      rw [h4] at h5
      cases Except.ok.inj h5
      simp only [Option.map_some, ByteWorld.parsed]
      rw [h6]
  · funext i
    cases h : w.signedPreKeys i with
    | none => rfl
    | some p =>
      obtain ⟨id, ts, k, sig, h1, h2, h3, h4, h5, h6⟩ := hk.signedPreKeys i p h
      obtain ⟨p', h7, h8, _⟩ := C07_signed_prekey_roundtrip id h1 ts h2 k h3 h4 sig h5
      rw [h6] at h7
      cases Except.ok.inj h7
      simp only [Option.map_some, ByteWorld.parsed]
      rw [h8]

omit C in
theorem keysMade_apply {w : World} (h : KeysMade w) (x : Write) : KeysMade (w.apply x) := by
  cases x with
  | session a r => exact ⟨h.preKeys, h.signedPreKeys⟩
  | identity n k => exact ⟨h.preKeys, h.signedPreKeys⟩
  | removePreKey i =>
    refine ⟨?_, h.signedPreKeys⟩
    intro j p hp
    simp only [World.apply, upd] at hp
    split at hp
    · cases hp
    · exact h.preKeys j p hp

theorem keysMade_next {w : World} (h : KeysMade w) (c : Call) : KeysMade (c.next w) := by
  unfold Call.next Outcome.final World.applyAll
  generalize (c.run w).writes = ws
  induction ws generalizing w with
  | nil => exact h
  | cons x ws ih => exact ih (keysMade_apply h x)

theorem byteStore_run (cs : List Call) : ∀ (w : World), KeysMade w →
    (∀ k a r, (Call.after w (cs.take k)).sessions a = some r → r.Ok ∧ r.serialize.length < 2 ^ 64) →
    Call.repliesB w.toBytes cs = Call.replies w cs ∧ Call.afterB w.toBytes cs = (Call.after w cs).toBytes ∧
    (Call.after w cs).toBytes.view = normal (Call.after w cs) := by
  induction cs with
  | nil =>
    intro w hk h
    exact ⟨rfl, rfl, view_toBytes hk (h 0)⟩
  | cons c cs ih =>
    intro w hk h
    have hv : w.toBytes.view = normal w := view_toBytes hk (h 0)
    have hr : c.run w.toBytes.view = c.run w := by rw [hv, normal_run]
    have hn : c.nextB w.toBytes = (c.next w).toBytes := by
      unfold Call.nextB Call.next Outcome.final
      rw [hr, applyAll_toBytes]
    obtain ⟨h1, h2, h3⟩ := ih (c.next w) (keysMade_next hk c) (fun k a r hs => h (k + 1) a r hs)
    refine ⟨?_, ?_, h3⟩
    · show (c.run w.toBytes.view).result :: Call.repliesB (c.nextB w.toBytes) cs = (c.run w).result :: Call.replies (c.next w) cs
      rw [hr, hn, h1]
    · show Call.afterB (c.nextB w.toBytes) cs = (Call.after (c.next w) cs).toBytes
      rw [hn, h2]

/-- **C50.** For every history of calls, a party whose stores keep serialised records and parse them on every load gets
the same replies as one whose stores keep the records, and its stores hold exactly the serialisations of the other's
records. -/
theorem C50_sessions (w : World) (hw : w.NoSessions) (hk : KeysMade w) (cs : List Call) (hs : SmallSessions w cs) :
    Call.repliesB w.toBytes cs = Call.replies w cs ∧ Call.afterB w.toBytes cs = (Call.after w cs).toBytes := by
  have h := byteStore_run cs w hk fun k a r h => ⟨reachable_all stateOk_inv w hw _ a r h, hs k a r h⟩
  exact ⟨h.1, h.2.1⟩

/-- **C50.** Nothing unreadable is ever stored: after every history each session cell parses back to the record that
was stored, marked not fresh, and each prekey cell to the prekey. -/
theorem C50_readable (w : World) (hw : w.NoSessions) (hk : KeysMade w) (cs : List Call) (hs : SmallSessions w cs) :
    (∀ a bs, (Call.afterB w.toBytes cs).sessions a = some bs →
      ∃ r, (Call.after w cs).sessions a = some r ∧ SessionRecord.ofSerialized bs = .ok { r with fresh := false }) ∧
    (∀ i bs, (Call.afterB w.toBytes cs).preKeys i = some bs →
      ∃ p, (Call.after w cs).preKeys i = some p ∧ PreKeyRecord.ofSerialized bs = .ok p) := by
  have h := byteStore_run cs w hk fun k a r h => ⟨reachable_all stateOk_inv w hw _ a r h, hs k a r h⟩
  rw [h.2.1]
  have hkm : KeysMade (Call.after w cs) := by
    unfold Call.after
    clear h hs hw
    induction cs generalizing w with
    | nil => exact hk
    | cons c cs ih => exact ih _ (keysMade_next hk c)
  refine ⟨?_, ?_⟩
  · intro a bs hb
    simp only [World.toBytes] at hb
    obtain ⟨r, hr, rfl⟩ := Option.map_eq_some_iff.1 hb
    refine ⟨r, hr, C06_session_record_roundtrip r (reachable_all stateOk_inv w hw _ a r hr) ?_⟩
    exact hs cs.length a r (by rw [List.take_length]; exact hr)
  · intro i bs hb
    simp only [World.toBytes] at hb
    obtain ⟨p, hp, rfl⟩ := Option.map_eq_some_iff.1 hb
    obtain ⟨id, k, h1, h2, h3, h4⟩ := hkm.preKeys i p hp
    obtain ⟨p', h5, h6, _⟩ := C07_prekey_roundtrip id h1 k h2 (by omega)
    rw [h4] at h5
    cases Except.ok.inj h5
    exact ⟨p, hp, h6⟩

/-! ## Groups -/

theorem groupView_toBytes {g : GroupStore} (h : ∀ n, (g n).Ok ∧ (g n).serialize.length < 2 ^ 64) :
    g.toBytes.view = g := by
  funext n
  unfold ByteGroupStore.view GroupStore.toBytes
  rw [C07_sender_key_record_roundtrip (g n) (h n).1 (h n).2]

/-- **C50.** The same for group histories. -/
theorem C50_groups (cs : List GroupCall) (g : GroupStore) (hg : ∀ n, (g n).Ok) (hs : SmallGroups g cs) :
    GroupCall.repliesB g.toBytes cs = GroupCall.replies g cs ∧
    GroupCall.afterB g.toBytes cs = (GroupCall.after g cs).toBytes ∧
    ∀ n, SenderKeyRecord.ofSerialized (GroupCall.afterB g.toBytes cs n) = .ok (GroupCall.after g cs n) := by
  induction cs generalizing g with
  | nil => exact ⟨rfl, rfl, fun n => C07_sender_key_record_roundtrip (g n) (hg n) (hs 0 n)⟩
  | cons c cs ih =>
    have hv : g.toBytes.view = g := groupView_toBytes fun n => ⟨hg n, hs 0 n⟩
    have hn : c.nextB g.toBytes = (c.next g).toBytes := by
      unfold GroupCall.nextB GroupCall.next GOutcome.final
      rw [hv]
      cases (c.run g).stored with
      | none => rfl
      | some r =>
        funext x
        simp only [GroupStore.toBytes, GroupStore.store]
        split <;> rfl
    obtain ⟨h1, h2, h3⟩ := ih (c.next g) (fun n => recordStep_ok (hg n) (next_record g c n)) (fun k n => hs (k + 1) n)
    refine ⟨?_, ?_, ?_⟩
    · show (c.run g.toBytes.view).result :: GroupCall.repliesB (c.nextB g.toBytes) cs = (c.run g).result :: GroupCall.replies (c.next g) cs
      rw [hv, hn, h1]
    · show GroupCall.afterB (c.nextB g.toBytes) cs = (GroupCall.after (c.next g) cs).toBytes
      rw [hn, h2]
    · show ∀ n, SenderKeyRecord.ofSerialized (GroupCall.afterB (c.nextB g.toBytes) cs n) = .ok (GroupCall.after (c.next g) cs n)
      rw [hn]
      exact h3

end

/-! ## The hypotheses are met -/

section
attribute [local instance] toy
open Example Spec

/-- Bob receives Alice's first message and answers. -/
def bobCalls : List Call :=
  [.decryptPkmsg aliceAddr firstPk (key 51) (fun _ => key 52), .encrypt aliceAddr [121, 111]]

/-- Only the addressed session is ever touched. -/
theorem after_other_none (w : World) (hw : w.NoSessions) (cs : List Call) (a : Address) (h : ∀ c ∈ cs, c.addr ≠ a) :
    (Call.after w cs).sessions a = none := by
  unfold Call.after
  have : w.sessions a = none := hw a
  clear hw
  induction cs generalizing w with
  | nil => exact this
  | cons c cs ih =>
    refine ih (c.next w) (fun d hd => h d (List.mem_cons_of_mem _ hd)) ?_
    rcases next_session w c a with h1 | ⟨r, _, h2, _⟩
    · rw [h1]; exact this
    · exact absurd h2.symm (h c (List.mem_cons_self ..))

theorem bobCalls_small : SmallSessions bob0 bobCalls := by
  intro k a r h
  by_cases ha : a = aliceAddr
  · subst ha
    have hall : ∀ j : Fin 3, ((Call.after bob0 (bobCalls.take j)).sessions aliceAddr).all
        (fun r => decide (r.serialize.length < 2 ^ 64)) = true := by decide +kernel
    have hk : bobCalls.take k = bobCalls.take (min k 2) := by
      by_cases hk : k ≤ 2
      · rw [Nat.min_eq_left hk]
      · have hl : bobCalls.length = 2 := rfl
        rw [Nat.min_eq_right (by omega), List.take_of_length_le (by omega), List.take_of_length_le (by omega)]
    rw [hk] at h
    have hd := hall ⟨min k 2, by omega⟩
    simp only [h, Option.all_some] at hd
    exact of_decide_eq_true hd
  · rw [after_other_none bob0 (fun _ => rfl) _ a] at h
    · cases h
    · intro c hc
      have : ∀ c ∈ bobCalls, c.addr = aliceAddr := by
        intro c hc
        simp only [bobCalls, List.mem_cons, List.not_mem_nil, or_false] at hc
        rcases hc with rfl | rfl <;> rfl
      rw [this c (List.mem_of_mem_take hc)]
      exact fun h => ha h.symm

theorem bob0_keysMade : KeysMade bob0 where
  preKeys := by
    intro i p h
    simp only [bob0] at h
    split at h
    · injection h with h
      refine ⟨31, pair 31, by decide, by decide, by decide, ?_⟩
      rw [← h]
      decide +kernel
    · cases h
  signedPreKeys := by
    intro i p h
    simp only [bob0] at h
    split at h
    · injection h with h
      refine ⟨22, 1000, pair 22, Toy.tag (key 2) (5 :: key 22), by decide, by decide, by decide, by decide,
        by decide +kernel, ?_⟩
      rw [← h]
      decide +kernel
    · cases h

/-- `C50_sessions` and `C50_readable` apply to Bob's side of the example conversation, whose replies are a plaintext and
a ciphertext. -/
example : Call.repliesB bob0.toBytes bobCalls = [.ok (.plaintext [104, 105]), .ok (.ciphertext (.whisper replyMsg))] := by
  rw [(C50_sessions bob0 (fun _ => rfl) bob0_keysMade bobCalls bobCalls_small).1]
  decide +kernel

example := C50_readable bob0 (fun _ => rfl) bob0_keysMade bobCalls bobCalls_small

/-- Creating a group session and sending to it, from the empty store. -/
def byteGroup : SenderKeyName := ⟨"g", ⟨"alice", 1⟩⟩
def byteGroupCalls : List GroupCall := [.create byteGroup ⟨7, key 91, key 92⟩, .encrypt byteGroup [1] (List.replicate 64 3)]

theorem byteGroupCalls_small : SmallGroups GroupStore.empty byteGroupCalls := by
  intro k n
  by_cases ha : n = byteGroup
  · subst ha
    have hall : ∀ j : Fin 3, ((GroupCall.after GroupStore.empty (byteGroupCalls.take j)) byteGroup).serialize.length < 2 ^ 64 := by
      decide +kernel
    have hk : byteGroupCalls.take k = byteGroupCalls.take (min k 2) := by
      by_cases hk : k ≤ 2
      · rw [Nat.min_eq_left hk]
      · have hl : byteGroupCalls.length = 2 := rfl
        rw [Nat.min_eq_right (by omega), List.take_of_length_le (by omega), List.take_of_length_le (by omega)]
    rw [hk]
    exact hall ⟨min k 2, by omega⟩
  · have hn : ∀ (cs : List GroupCall) (g : GroupStore), (∀ c ∈ cs, c.name = byteGroup) →
        GroupCall.after g cs n = g n := by
      intro cs
      induction cs with
      | nil => intro g _; rfl
      | cons c cs ih =>
        intro g h
        show GroupCall.after (c.next g) cs n = g n
        rw [ih _ fun d hd => h d (List.mem_cons_of_mem _ hd)]
        have hc := h c (List.mem_cons_self ..)
        unfold GroupCall.next GOutcome.final
        cases (c.run g).stored with
        | none => rfl
        | some r =>
          simp only [GroupStore.store]
          rw [if_neg (by rw [hc]; exact ha)]
    rw [hn]
    · exact (by decide : (SenderKeyRecord.serialize {}).length < 2 ^ 64)
    · intro c hc
      have := List.mem_of_mem_take hc
      simp only [byteGroupCalls, List.mem_cons, List.not_mem_nil, or_false] at this
      rcases this with rfl | rfl <;> rfl

/-- `C50_groups` applies to this history, in which both calls succeed. -/
example : (GroupCall.repliesB GroupStore.empty.toBytes byteGroupCalls).map (·.isOk) = [true, true] := by
  rw [(C50_groups byteGroupCalls GroupStore.empty (fun _ s hs => by cases hs) byteGroupCalls_small).1]
  decide +kernel

end
end Axolotl
