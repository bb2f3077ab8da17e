import Verif.Spec.Fault
import Verif.Props.Crash
import Verif.Props.Interleave

/-!
# C69: store operations that fail
-/

namespace Axolotl
open Spec

section
variable {M : Machine} {α : Type}

/-- A failing program has made the first of the changes it makes when nothing fails. -/
theorem faulty_prefix (made : Bool) (p : Prog M α) : ∀ (k : Nat) (s : M.State),
    p.faulty made k s = ((p.alone s).1, .inr (p.alone s).2) ∨
    ∃ n f, p.faulty made k s = ((p.alone s).1.take n, .inl f) := by
  induction p with
  | done r => intro k s; left; cases k <;> rfl
  | ask q f ih =>
    intro k s
    cases k with
    | zero => right; exact ⟨0, .load, by simp [Prog.faulty]⟩
    | succ k => exact ih _ k s
  | change x p ih =>
    intro k s
    cases k with
    | zero =>
      right
      cases made with
      | false => exact ⟨0, .lost, by simp [Prog.faulty]⟩
      | true => exact ⟨1, .made, by simp [Prog.faulty, Prog.alone]⟩
    | succ k =>
      rcases ih k (M.apply s x) with h | ⟨n, f, h⟩
      · left; simp only [Prog.faulty, Prog.alone, h]
      · right; exact ⟨n + 1, f, by simp only [Prog.faulty, Prog.alone, h, List.take_succ_cons]⟩

theorem changesOnly_faulty {p : Prog M α} (hp : p.ChangesOnly) (made : Bool) : ∀ (k : Nat) (s : M.State),
    p.faulty made k s = ((p.alone s).1, .inr (p.alone s).2) ∨
    (∃ n, n < (p.alone s).1.length ∧ p.faulty made k s = ((p.alone s).1.take n, .inl .lost)) ∨
    (∃ n, n < (p.alone s).1.length ∧ p.faulty made k s = ((p.alone s).1.take (n + 1), .inl .made)) := by
  induction hp with
  | done => intro k s; left; cases k <;> rfl
  | @change x p _ ih =>
    intro k s
    cases k with
    | zero =>
      right
      cases made with
      | false => left; exact ⟨0, by simp [Prog.alone], by simp [Prog.faulty]⟩
      | true => right; exact ⟨0, by simp [Prog.alone], by simp [Prog.faulty, Prog.alone]⟩
    | succ k =>
      rcases ih k (M.apply s x) with h | ⟨n, hn, h⟩ | ⟨n, hn, h⟩
      · left; simp only [Prog.faulty, Prog.alone, h]
      · right; left; exact ⟨n + 1, by simpa [Prog.alone] using hn, by simp only [Prog.faulty, Prog.alone, h, List.take_succ_cons]⟩
      · right; right; exact ⟨n + 1, by simpa [Prog.alone] using hn, by simp only [Prog.faulty, Prog.alone, h, List.take_succ_cons]⟩

/-- What a failing program that does all its loads first has done. -/
theorem asksFirst_faulty {p : Prog M α} (hp : p.AsksFirst) (made : Bool) : ∀ (k : Nat) (s : M.State),
    p.faulty made k s = ((p.alone s).1, .inr (p.alone s).2) ∨ p.faulty made k s = ([], .inl .load) ∨
    (∃ n, n < (p.alone s).1.length ∧ p.faulty made k s = ((p.alone s).1.take n, .inl .lost)) ∨
    (∃ n, n < (p.alone s).1.length ∧ p.faulty made k s = ((p.alone s).1.take (n + 1), .inl .made)) := by
  induction hp with
  | @ask q f _ ih =>
    intro k s
    cases k with
    | zero => right; left; rfl
    | succ k => exact ih _ k s
  | rest h =>
    intro k s
    rcases changesOnly_faulty h made k s with h | h | h
    · exact .inl h
    · exact .inr (.inr (.inl h))
    · exact .inr (.inr (.inr h))

/-- Every fault can happen: any number of the changes may have been made. -/
theorem changesOnly_faults {p : Prog M α} (hp : p.ChangesOnly) : ∀ (n : Nat) (s : M.State), n < (p.alone s).1.length →
    p.faulty false n s = ((p.alone s).1.take n, .inl .lost) ∧ p.faulty true n s = ((p.alone s).1.take (n + 1), .inl .made) := by
  induction hp with
  | done => intro n s h; simp [Prog.alone] at h
  | @change x p _ ih =>
    intro n s h
    cases n with
    | zero => simp [Prog.faulty, Prog.alone]
    | succ n =>
      obtain ⟨h1, h2⟩ := ih n (M.apply s x) (by simpa [Prog.alone] using h)
      simp only [Prog.faulty, Prog.alone, h1, h2, List.take_succ_cons, and_self]

theorem asksFirst_faults {p : Prog M α} (hp : p.AsksFirst) (n : Nat) (s : M.State) (h : n < (p.alone s).1.length) :
    ∃ k, p.faulty false k s = ((p.alone s).1.take n, .inl .lost) ∧ p.faulty true k s = ((p.alone s).1.take (n + 1), .inl .made) := by
  induction hp with
  | @ask q f _ ih =>
    obtain ⟨k, hk⟩ := ih _ h
    exact ⟨k + 1, hk⟩
  | rest hp => exact ⟨n, changesOnly_faults hp n s h⟩

end

section
variable [C : Crypto]

/-- **C69.** A call in which a store operation fails has made the first of the changes it makes otherwise, in the same order: if
a load failed none of them, and otherwise those before the failing one, with or without that one. -/
theorem C69_prefix (w : World) (c : Call) (made : Bool) (k : Nat) :
    let o := Prog.faulty (M := Stores) made k w c.prog
    o = ((c.run w).writes, .inr (c.run w).result) ∨ o = ([], .inl .load) ∨
    (∃ n, n < (c.run w).writes.length ∧ o = ((c.run w).writes.take n, .inl .lost)) ∨
    (∃ n, n < (c.run w).writes.length ∧ o = ((c.run w).writes.take (n + 1), .inl .made)) := by
  have h := asksFirst_faulty (M := Stores) (prog_asksFirst c) made k w
  have h0 := prog_alone w c
  have h1 : (Prog.alone (M := Stores) w c.prog).1 = (c.run w).writes := congrArg Prod.fst h0
  have h2 : (Prog.alone (M := Stores) w c.prog).2 = (c.run w).result := congrArg Prod.snd h0
  rw [h1, h2] at h
  exact h

/-- **C69.** Each of these can happen. -/
theorem C69_anywhere (w : World) (c : Call) (n : Nat) (h : n < (c.run w).writes.length) :
    ∃ k, Prog.faulty (M := Stores) false k w c.prog = ((c.run w).writes.take n, .inl .lost) ∧
      Prog.faulty (M := Stores) true k w c.prog = ((c.run w).writes.take (n + 1), .inl .made) := by
  have h0 := prog_alone w c
  have h1 : (Prog.alone (M := Stores) w c.prog).1 = (c.run w).writes := congrArg Prod.fst h0
  have h2 := asksFirst_faults (M := Stores) (prog_asksFirst c) n w (by rw [h1]; exact h)
  rw [h1] at h2
  exact h2

/-- **C69.** The session stored for an address is then the old one or the one a successful call stores, and all that C32 says
about a process that dies during the call holds. -/
theorem C69_session (w : World) (c : Call) (made : Bool) (k : Nat) (ws : List Write) (f : Fault)
    (h : Prog.faulty (M := Stores) made k w c.prog = (ws, .inl f)) (a : Address) :
    ((w.applyAll ws).sessions a = w.sessions a ∨ (w.applyAll ws).sessions a = (c.next w).sessions a) ∧
    ∃ n, w.applyAll ws = crashed w c n := by
  have h0 : ∃ n, w.applyAll ws = crashed w c n := by
    rcases C69_prefix w c made k with h1 | h1 | ⟨n, _, h1⟩ | ⟨n, _, h1⟩ <;> rw [h] at h1
    · cases h1
    · injection h1 with h1 _
      subst h1
      exact ⟨0, rfl⟩
    · injection h1 with h1 _
      subst h1
      exact ⟨n, rfl⟩
    · injection h1 with h1 _
      subst h1
      exact ⟨n + 1, rfl⟩
  obtain ⟨n, hn⟩ := h0
  refine ⟨?_, n, hn⟩
  rw [hn]
  exact C32_session_old_or_new_partial w c n a

theorem writes_once {c : Call} (hc : writesOnce c) (w : World) : (c.run w).writes.length ≤ 1 := by
  cases c with
  | encrypt a pt =>
    show (SessionCipher.encrypt w a pt).writes.length ≤ 1
    unfold SessionCipher.encrypt
    cases h : (SessionCipher.encryptWithState (w.loadSession a).sessionState pt) with
    | error e => simp [h, Outcome.ofRes, error_bind]
    | ok y => simp [h, Outcome.ofRes, ok_bind]
  | decryptMsg a m s ss =>
    show (SessionCipher.decryptMsg w a m s ss).writes.length ≤ 1
    unfold SessionCipher.decryptMsg
    split
    · simp [Outcome.ofRes]
    · cases h : SessionCipher.decryptWithSessionRecord (w.loadSession a) m s ss with
      | error e => simp [Outcome.ofRes, error_bind]
      | ok y => simp [Outcome.ofRes, ok_bind]
  | initKeyExchange a n s1 s2 s3 =>
    cases h : (Call.run w (.initKeyExchange a n s1 s2 s3)).writes with
    | nil => simp
    | cons x l =>
      have hx : x ∈ (SessionBuilder.processInitKeyExchangeMessage w a n s1 s2 s3).writes := by
        show x ∈ (Call.run w (.initKeyExchange a n s1 s2 s3)).writes
        rw [h]; exact List.mem_cons_self ..
      obtain ⟨s, _, hw⟩ := initKeyExchange_writes hx
      have h' : (SessionBuilder.processInitKeyExchangeMessage w a n s1 s2 s3).writes = x :: l := h
      rw [hw] at h'
      rw [← h']
      simp
  | _ => exact hc.elim

/-- **C69.** A call that writes once has done all it does or nothing; nothing if the fault was not a write that was made. -/
theorem C69_all_or_nothing (w : World) (c : Call) (hc : writesOnce c) (made : Bool) (k : Nat) (ws : List Write) (f : Fault)
    (h : Prog.faulty (M := Stores) made k w c.prog = (ws, .inl f)) :
    (f ≠ .made → w.applyAll ws = w) ∧ (f = .made → w.applyAll ws = c.next w) := by
  have h1 := writes_once hc w
  rcases C69_prefix w c made k with h2 | h2 | ⟨n, hn, h2⟩ | ⟨n, hn, h2⟩ <;> rw [h] at h2
  · cases h2
  · injection h2 with h2 h3
    injection h3 with h3
    subst h2 h3
    exact ⟨fun _ => rfl, fun h => by cases h⟩
  · injection h2 with h2 h3
    injection h3 with h3
    subst h2 h3
    have : n = 0 := by omega
    subst this
    exact ⟨fun _ => rfl, fun h => by cases h⟩
  · injection h2 with h2 h3
    injection h3 with h3
    subst h2 h3
    have : n = 0 := by omega
    subst this
    refine ⟨fun h => absurd rfl h, fun _ => ?_⟩
    rw [List.take_of_length_le (by omega)]
    rfl

/-- **C69.** Encrypting, decrypting in an established session and asking for a key exchange can be tried again as often as
needed: as long as the failing writes are not made, the attempts leave no trace. -/
theorem C69_retry (w w' : World) (cs : List Call) (hcs : ∀ c ∈ cs, writesOnce c)
    (h : Failing (fun f _ => f ≠ .made) w cs w') : w' = w := by
  induction h with
  | none => rfl
  | one h1 h2 _ ih =>
    rw [ih fun c hc => hcs c (List.mem_cons_of_mem _ hc)]
    exact (C69_all_or_nothing _ _ (hcs _ (List.mem_cons_self ..)) _ _ _ _ h1).1 h2

/-- What attempts at a prekey message leave behind as long as none of them has stored the session. -/
theorem pkmsg_attempts {w w' : World} {a : Address} {m : PreKeyWhisperMessage} {cs : List Call}
    (hcs : ∀ c ∈ cs, ∃ seed seeds, c = .decryptPkmsg a m seed seeds)
    (h : Failing (fun _ ws => ∀ r, .session a r ∉ ws) w cs w') :
    w' = w ∨ w' = w.apply (.identity a.1 m.identityKey) := by
  induction h with
  | none => exact .inl rfl
  | @one w w' c cs made k f ws h1 h2 _ ih =>
    have h3 := ih fun c hc => hcs c (List.mem_cons_of_mem _ hc)
    obtain ⟨seed, seeds, rfl⟩ := hcs _ (List.mem_cons_self ..)
    have h4 : ws = [] ∨ ws = [.identity a.1 m.identityKey] := by
      have hpre : ∃ n, ws = ((SessionCipher.decryptPkmsg w a m seed seeds).writes).take n := by
        rcases C69_prefix w (.decryptPkmsg a m seed seeds) made k with h5 | h5 | ⟨n, _, h5⟩ | ⟨n, _, h5⟩ <;> rw [h1] at h5
        · cases h5
        · injection h5 with h5 _
          exact ⟨0, h5⟩
        · injection h5 with h5 _
          exact ⟨n, h5⟩
        · injection h5 with h5 _
          exact ⟨n + 1, h5⟩
      obtain ⟨n, hn⟩ := hpre
      rcases decryptPkmsg_cases w a m seed seeds with ⟨_, he⟩ | ⟨_, ⟨e, _, he⟩ | ⟨r, u, e, _, _, he⟩ | ⟨r, u, pt', r2, _, _, he⟩⟩ <;>
        rw [he] at hn
      · left; simpa using hn
      · left; simpa using hn
      · cases n with
        | zero => left; simpa using hn
        | succ n => right; simpa using hn
      · match n with
        | 0 => left; simpa using hn
        | 1 => right; simpa using hn
        | n + 2 => exact absurd (by rw [hn]; simp) (h2 r2)
    rcases h4 with rfl | rfl
    · exact h3
    · right
      have h6 : (w.apply (.identity a.1 m.identityKey)).apply (.identity a.1 m.identityKey) =
          w.apply (.identity a.1 m.identityKey) := by
        simp only [World.apply]
        congr 1
        funext n
        unfold upd
        split <;> rfl
      rcases h3 with h3 | h3
      · exact h3
      · exact h3.trans h6

/-- **C69.** A prekey message can be tried again as often as needed, with any randomness, as long as no attempt has stored the
session: the attempt that meets no fault gives the plaintext, provided the application still trusts the identity that it may
have saved meanwhile. -/
theorem C69_retry_prekey (hC : C.Lawful) (w w' : World) (a : Address) (m : PreKeyWhisperMessage) (seed : Bytes)
    (seeds : Nat → Bytes) (pt : Bytes) (h : (SessionCipher.decryptPkmsg w a m seed seeds).result = .ok pt)
    (hs : seed.length = 32) (hss : ∀ i, (seeds i).length = 32)
    (htrust : w.policy (w.apply (.identity a.1 m.identityKey)).identities a.1 m.identityKey = true)
    (cs : List Call) (hcs : ∀ c ∈ cs, ∃ seed seeds, c = .decryptPkmsg a m seed seeds)
    (hfail : Failing (fun _ ws => ∀ r, .session a r ∉ ws) w cs w')
    (seed' : Bytes) (seeds' : Nat → Bytes) (hs' : seed'.length = 32) (hss' : ∀ i, (seeds' i).length = 32) :
    (SessionCipher.decryptPkmsg w' a m seed' seeds').result = .ok pt := by
  have hwr : ∃ l, (SessionCipher.decryptPkmsg w a m seed seeds).writes = .identity a.1 m.identityKey :: l ∧
      w.policy w.identities a.1 m.identityKey = true := by
    rcases decryptPkmsg_cases w a m seed seeds with ⟨_, he⟩ | ⟨ht, ⟨e, _, he⟩ | ⟨r, u, e, _, _, he⟩ | ⟨r, u, pt', r2, _, _, he⟩⟩ <;>
      rw [he] at h ⊢
    · cases h
    · cases h
    · cases h
    · exact ⟨_, rfl, ht⟩
  obtain ⟨l, hl, ht⟩ := hwr
  have h0 : crashed w (.decryptPkmsg a m seed seeds) 0 = w := rfl
  have h1 : crashed w (.decryptPkmsg a m seed seeds) 1 = w.apply (.identity a.1 m.identityKey) := by
    show w.applyAll ((SessionCipher.decryptPkmsg w a m seed seeds).writes.take 1) = _
    rw [hl]
    rfl
  rcases pkmsg_attempts hcs hfail with rfl | rfl
  · have := C32_redelivery_partial hC w' a m seed seeds pt h hs hss 0 (by simp) (by rw [h0]; exact ht) seed' seeds' hs' hss'
    rwa [h0] at this
  · have := C32_redelivery_partial hC w a m seed seeds pt h hs hss 1 (by rw [hl]; simp) (by rw [h1]; exact htrust) seed' seeds' hs' hss'
    rwa [h1] at this

/-- **C69.** A group call in which a store operation fails has done all it does or nothing; nothing if the fault was not a write
that was made. -/
theorem C69_group (g : GroupStore) (c : GroupCall) (made : Bool) (k : Nat) :
    let o := Prog.faulty (M := SenderKeys) made k g c.prog
    (o.2 = .inr (c.run g).result ∧ senderKeysAfter g o.1 = c.next g) ∨
    (o.2 = .inl .made ∧ senderKeysAfter g o.1 = c.next g) ∨
    ((o.2 = .inl .load ∨ o.2 = .inl .lost) ∧ senderKeysAfter g o.1 = g) := by
  have h0 := groupProg_alone g c
  have h1 : (Prog.alone (M := SenderKeys) g c.prog).1 = ((c.run g).pair c.name).1 := congrArg Prod.fst h0
  have h2 : (Prog.alone (M := SenderKeys) g c.prog).2 = (c.run g).result := (congrArg Prod.snd h0).trans rfl
  have h := asksFirst_faulty (M := SenderKeys) (groupProg_asksFirst c) made k g
  rw [h1, h2] at h
  have hnext : senderKeysAfter g ((c.run g).pair c.name).1 = c.next g := by
    unfold GroupCall.next GOutcome.final GOutcome.pair
    cases (c.run g).stored <;> rfl
  have hlen : ((c.run g).pair c.name).1.length ≤ 1 := by
    unfold GOutcome.pair
    cases (c.run g).stored <;> simp
  rcases h with h | h | ⟨n, hn, h⟩ | ⟨n, hn, h⟩
  · left; simp only [h]; exact ⟨trivial, hnext⟩
  · right; right; simp only [h]; exact ⟨.inl trivial, rfl⟩
  · right; right
    have hn : n < ((c.run g).pair c.name).1.length := hn
    have : n = 0 := by omega
    subst this
    simp only [h]
    exact ⟨.inr trivial, rfl⟩
  · right; left
    have hl : ((c.run g).pair c.name).1.length ≤ n + 1 := by omega
    have h : Prog.faulty (M := SenderKeys) made k g c.prog = (((c.run g).pair c.name).1, .inl .made) :=
      h.trans (congrArg (fun l => (l, (.inl .made : Fault ⊕ Res GroupReply))) (List.take_of_length_le hl))
    simp only [h]
    exact ⟨trivial, hnext⟩

/-- **C69.** A history of group calls with store faults here and there ends in the store, and gives the replies, of the history
without the calls that failed with nothing stored: all theorems about such histories (C38 to C42, C61) speak about it. -/
theorem C69_group_history (g g' : GroupStore) (rs : List (GroupCall × (Fault ⊕ Res GroupReply))) (h : GroupRun g rs g') :
    g' = GroupCall.after g ((notLost rs).map Prod.fst) ∧
    ∀ (i : Nat) (c : GroupCall) (r : Res GroupReply), (notLost rs)[i]? = some (c, .inr r) →
      (GroupCall.replies g ((notLost rs).map Prod.fst))[i]? = some r := by
  induction h with
  | nil => exact ⟨rfl, fun i c r h => by simp [notLost] at h⟩
  | @cons g g' c made k rs ws r h1 _ ih =>
    have h2 := C69_group g c made k
    rw [h1] at h2
    simp only at h2 ih ⊢
    rcases h2 with ⟨rfl, h3⟩ | ⟨rfl, h3⟩ | ⟨rfl | rfl, h3⟩ <;> rw [h3] at ih
    · refine ⟨ih.1, ?_⟩
      intro i c' r' hi
      cases i with
      | zero =>
        have hi : some (c, Sum.inr (c.run g).result) = some (c', Sum.inr r') := hi
        injection hi with hi
        injection hi with _ hi
        injection hi with hi
        rw [← hi]
        rfl
      | succ i => exact ih.2 i c' r' hi
    · refine ⟨ih.1, ?_⟩
      intro i c' r' hi
      cases i with
      | zero => simp [notLost] at hi
      | succ i => exact ih.2 i c' r' hi
    · exact ih
    · exact ih

end

/-! ## Examples -/

namespace Example
attribute [local instance] toy

/-- Alice's store loses the record of her first encryption: she can encrypt again and sends what she would have sent. -/
example : ∃ k, Prog.faulty (M := Stores) false k alice1 (Call.encrypt bobAddr [104, 105]).prog = ([], .inl .lost) := by
  obtain ⟨k, h, _⟩ := C69_anywhere alice1 (.encrypt bobAddr [104, 105]) 0 (by decide +kernel)
  exact ⟨k, h⟩

/-- The hypotheses of `C69_retry_prekey`: Bob's store saves Alice's identity and then fails to store the session, twice. -/
theorem bob_fails_twice : ∃ w', Failing (fun _ ws => ∀ r, .session aliceAddr r ∉ ws) bob0
    [.decryptPkmsg aliceAddr firstPk (key 51) (fun _ => key 52), .decryptPkmsg aliceAddr firstPk (key 51) (fun _ => key 52)] w' := by
  have h1 : ((Call.decryptPkmsg aliceAddr firstPk (key 51) (fun _ => key 52)).run bob0).writes.map
      (fun x => match x with | .session .. => true | _ => false) = [false, true, false] := by decide +kernel
  have key : ∀ (w : World) (c : Call) (f : Fault) (ws : List Write), (c.run w).writes.map
      (fun x => match x with | .session .. => true | _ => false) = [false, true, false] →
      ∃ k, Prog.faulty (M := Stores) false k w c.prog = ((c.run w).writes.take 1, .inl .lost) ∧
        ∀ r, .session aliceAddr r ∉ (c.run w).writes.take 1 := by
    intro w c f ws h
    have hl := congrArg List.length h
    rw [List.length_map] at hl
    obtain ⟨k, hk, _⟩ := C69_anywhere w c 1 (by rw [hl]; decide)
    refine ⟨k, hk, fun r hr => ?_⟩
    have := List.mem_map_of_mem (f := fun x => match x with | .session .. => true | _ => false) hr
    rw [List.map_take, h] at this
    simp at this
  obtain ⟨k1, h2, h3⟩ := key _ _ .lost [] h1
  have h4 : ((Call.decryptPkmsg aliceAddr firstPk (Example.key 51) (fun _ => Example.key 52)).run (bobDies 1)).writes.map
      (fun x => match x with | .session .. => true | _ => false) = [false, true, false] := by decide +kernel
  obtain ⟨k2, h5, h6⟩ := key _ _ .lost [] h4
  exact ⟨_, .one h2 h3 (.one h5 h6 .none)⟩

example (w' : World) (h : Failing (fun _ ws => ∀ r, .session aliceAddr r ∉ ws) bob0
    [.decryptPkmsg aliceAddr firstPk (key 51) (fun _ => key 52), .decryptPkmsg aliceAddr firstPk (key 51) (fun _ => key 52)] w') :
    (SessionCipher.decryptPkmsg w' aliceAddr firstPk (key 53) (fun _ => key 54)).result = .ok [104, 105] :=
  C69_retry_prekey toy_lawful bob0 w' aliceAddr firstPk (key 51) (fun _ => key 52) [104, 105] bobGot_ok (by decide)
    (by intro; decide) (by decide +kernel) _
    (by
      intro c hc
      simp only [List.mem_cons, List.not_mem_nil, or_false, or_self] at hc
      exact ⟨_, _, hc⟩) h (key 53) (fun _ => key 54) (by decide) (by intro; decide)

/-- A group history: the load of the first call fails, the same call succeeds when tried again, and the load of a third fails. -/
example : ∃ r g', GroupRun GroupStore.empty
    [(.create grp grpRand, .inl .load), (.create grp grpRand, r), (.encrypt grp [1] (key 1), .inl .load)] g' := by
  have h : ∀ (g : GroupStore) (c : GroupCall), Prog.faulty (M := SenderKeys) false 0 g c.prog = ([], .inl .load) := by
    intro g c
    obtain ⟨f, h1, _⟩ := groupProg_shape c
    rw [h1]
    rfl
  exact ⟨_, _, .cons (h _ _) (.cons (made := false) (k := 5) rfl (.cons (h _ _) .nil))⟩

end Example
end Axolotl
