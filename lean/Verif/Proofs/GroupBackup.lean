import Verif.Props.Room
import Verif.Spec.GroupBackup

/-! # The invariant of a group whose members restore backups -/

namespace Axolotl
section
variable [C : Crypto]
open Spec ByteUtil
variable {M : Type} [DecidableEq M]

/-! ## Logs -/

/-- What has to do with a name in one entry. -/
structure NoTrace (n : SenderKeyName) (e : RoomEntry M) : Prop where
  sent : sentUnder n [e] = []
  heard : ∀ x, heardBy x n [e] = []
  read : ∀ x, readBy x n [e] = []
  announced : ∀ d, ¬ Announced n [e] d

omit C in
theorem notrace_other {n : SenderKeyName} (m : M) (c : GroupCall) (r : Res GroupReply) (hc : c.name ≠ n) :
    NoTrace n (⟨m, c, r⟩ : RoomEntry M) := by
  refine ⟨?_, ?_, ?_, ?_⟩
  · cases c with
    | encrypt n' pt rand =>
      have hc : n' ≠ n := hc
      unfold sentUnder
      cases r with
      | error e => rfl
      | ok x => cases x <;> simp [hc]
    | _ => rfl
  · intro x
    cases c with
    | process n' d =>
      have hc : n' ≠ n := hc
      unfold heardBy
      cases r with
      | error e => rfl
      | ok x => simp [hc]
    | _ => rfl
  · intro x
    cases c with
    | decrypt n' b =>
      have hc : n' ≠ n := hc
      unfold readBy
      cases r with
      | error e => rfl
      | ok x => cases x <;> simp [hc]
    | _ => rfl
  · rintro d ⟨e, he, rnd, d0, h, _⟩
    rw [List.mem_singleton.1 he] at h
    simp only at h
    rw [h] at hc
    exact hc rfl

omit C in
theorem notrace_failed (n : SenderKeyName) (m : M) (c : GroupCall) (e : Err) : NoTrace n (⟨m, c, .error e⟩ : RoomEntry M) := by
  refine ⟨by cases c <;> rfl, fun x => by cases c <;> rfl, fun x => by cases c <;> rfl, ?_⟩
  rintro d ⟨e, he, rnd, d0, _, h, _⟩
  rw [List.mem_singleton.1 he] at h
  cases h

omit C [DecidableEq M] in
theorem announced_append {n : SenderKeyName} {l l' : RoomLog M} {d : SenderKeyDistributionMessage} :
    Announced n (l ++ l') d ↔ Announced n l d ∨ Announced n l' d := by
  constructor
  · rintro ⟨e, he, h⟩
    rcases List.mem_append.1 he with he | he
    · exact .inl ⟨e, he, h⟩
    · exact .inr ⟨e, he, h⟩
  · rintro (⟨e, he, h⟩ | ⟨e, he, h⟩)
    · exact ⟨e, List.mem_append_left _ he, h⟩
    · exact ⟨e, List.mem_append_right _ he, h⟩

omit C [DecidableEq M] in
theorem sentUnder_subset {n : SenderKeyName} {l l' : RoomLog M} (h : ∀ e ∈ l, e ∈ l') : ∀ x ∈ sentUnder n l, x ∈ sentUnder n l' := by
  intro x hx
  obtain ⟨e, he, h1⟩ := List.mem_filterMap.1 hx
  exact List.mem_filterMap.2 ⟨e, h e he, h1⟩

omit C in
theorem readBy_subset {m : M} {n : SenderKeyName} {l l' : RoomLog M} (h : ∀ e ∈ l, e ∈ l') : ∀ x ∈ readBy m n l, x ∈ readBy m n l' := by
  intro x hx
  obtain ⟨e, he, h1⟩ := List.mem_filterMap.1 hx
  exact List.mem_filterMap.2 ⟨e, h e he, h1⟩

omit C in
theorem heardBy_subset {m : M} {n : SenderKeyName} {l l' : RoomLog M} (h : ∀ e ∈ l, e ∈ l') :
    ∀ x ∈ heardBy m n l, x ∈ heardBy m n l' := by
  intro x hx
  obtain ⟨e, he, h1⟩ := List.mem_filterMap.1 hx
  exact List.mem_filterMap.2 ⟨e, h e he, h1⟩

omit C in
theorem nil_of_subset {α : Type} {l l' : List α} (h : ∀ x ∈ l, x ∈ l') (h' : l' = []) : l = [] := by
  cases l with
  | nil => rfl
  | cons a l => have := h a (List.mem_cons_self ..); rw [h'] at this; cases this

omit C [DecidableEq M] in
theorem announced_subset {n : SenderKeyName} {l l' : RoomLog M} {d : SenderKeyDistributionMessage} (h : ∀ e ∈ l, e ∈ l')
    (ha : Announced n l d) : Announced n l' d := by
  obtain ⟨e, he, h1⟩ := ha
  exact ⟨e, h e he, h1⟩

omit C in
theorem Spec.HasNumber.unique {b : Bytes} {i j : Nat} (h : HasNumber b i) (h' : HasNumber b j) : i = j := by
  obtain ⟨m, h1, h2⟩ := h
  obtain ⟨m', h3, h4⟩ := h'
  have := Except.ok.inj (h1.symm.trans h3)
  subst this
  omega

/-! ## States -/

/-- The iteration before the position is not kept: it has been used. -/
def LastUsed (s : SenderKeyState) : Prop := iterationOf s = 0 ∨ iterationOf s - 1 ∉ pending s

theorem LastUsed.step {s s' : SenderKeyState} (h : StateStep s s') (hg : GoodSenderState s) (hl : LastUsed s) : LastUsed s' := by
  cases h with
  | send =>
    right
    intro hm
    have := hg.2 _ hm
    have e : iterationOf (sentOn s) = iterationOf s + 1 := rfl
    rw [e] at this
    omega
  | @old i k rest hi ht =>
    rcases hl with hl | hl
    · exact .inl hl
    · right
      obtain ⟨a, b, h3, h4, _⟩ := takeKey_pending ht
      intro hm
      apply hl
      unfold pending at hm ⊢
      simp only at hm
      rw [h4, List.map_append] at hm
      rw [h3, List.map_append, List.map_cons]
      rcases List.mem_append.1 hm with hm | hm
      · exact List.mem_append_left _ hm
      · exact List.mem_append_right _ (List.mem_cons_of_mem _ hm)
  | @new i hp hi =>
    right
    have e : iterationOf (GroupCipher.moved s i) = i + 1 := rfl
    rw [e, pending_moved]
    intro hm
    rcases List.mem_append.1 hm with hm | hm
    · have := hg.2 _ hm; omega
    · obtain ⟨x, hx, hx2⟩ := List.mem_map.1 hm
      have := List.mem_range.1 hx
      omega

/-- Sending uses the next iteration. -/
theorem Keeps.sent {d : SenderKeyDistributionMessage} {done : Nat → Prop} {s : SenderKeyState} (h : Keeps d done s)
    (hs : iterationOf s + 1 < 2 ^ 32) : Keeps d (fun j => done j ∨ j = iterationOf s) (sentOn s) := by
  have hstep : StateStep s (sentOn s) := .send hs
  refine ⟨h.good.step hstep, h.chain.step hstep, h.pub, h.seeds, ?_⟩
  intro i hi
  have e : iterationOf (sentOn s) = iterationOf s + 1 := rfl
  have e2 : pending (sentOn s) = pending s := rfl
  rw [e, e2]
  constructor
  · rintro (q | rfl)
    · obtain ⟨q1, q2⟩ := (h.used i hi).1 q
      exact ⟨by omega, q2⟩
    · refine ⟨by omega, fun q => ?_⟩
      have := h.good.2 _ q
      omega
  · rintro ⟨q1, q2⟩
    by_cases hi' : i = iterationOf s
    · exact .inr hi'
    · exact .inl ((h.used i hi).2 ⟨by omega, q2⟩)

/-- A message that has not been used is read. -/
theorem keeps_new (hC : C.Lawful) {g : GroupStore} {n : SenderKeyName} {d : SenderKeyDistributionMessage} {done : Nat → Prop}
    {s : SenderKeyState} (h1 : stateFor (g n) d.id = some s) (h2 : Keeps d done s) {x : GroupSent} {m : SenderKeyMessage}
    (hx : GroupGenuine d x m) (hnew : ¬ done m.iteration) :
    (GroupCipher.decrypt g n x.bytes).result = .ok x.plaintext ∧
    ∃ s' j, (g n).getStateById d.id = .ok (s, j) ∧ (GroupCall.decrypt n x.bytes).next g n = (g n).replace j s' ∧
      stateFor ((GroupCall.decrypt n x.bytes).next g n) d.id = some s' ∧
      StateStep s s' ∧ Keeps d (fun j => done j ∨ j = m.iteration) s' := by
  obtain ⟨s', h3, h4, h5⟩ := h2.fresh_key hC.hmac_len hx.later hx.fits hnew
  obtain ⟨j, h6⟩ := SenderKeyRecord.getStateById_some h1
  have hwr : GroupCipher.decryptWithRecord (g n) x.bytes = .ok (x.plaintext, (g n).replace j s') := by
    unfold GroupCipher.decryptWithRecord
    rw [if_neg (stateFor_ne h1), hx.parses, ok_bind, hx.keyId, h6, ok_bind]
    simp only [h2.pub, ok_bind, hx.signed, h3]
    unfold GroupCipher.getPlainText
    rw [hx.opens]
    rfl
  have hdec : GroupCipher.decrypt g n x.bytes = ⟨some ((g n).replace j s'), .ok x.plaintext⟩ := by
    unfold GroupCipher.decrypt
    rw [hwr]
  have hnext := next_decrypt (g := g) (n := n) (b := x.bytes) (r := (g n).replace j s') (by rw [hdec])
  refine ⟨by rw [hdec], s', j, h6, hnext, ?_, h4, h5⟩
  rw [hnext]
  have hid : SenderKeyState.getKeyId s' = d.id := by
    unfold SenderKeyState.getKeyId
    rw [h4.id]; exact stateFor_id h1
  rw [(SenderKeyRecord.getStateById_ok h6).2.2 s' hid, if_pos rfl]

/-- A message that has been used is a duplicate. -/
theorem keeps_again {g : GroupStore} {n : SenderKeyName} {d : SenderKeyDistributionMessage} {done : Nat → Prop}
    {s : SenderKeyState} (h1 : stateFor (g n) d.id = some s) (h2 : Keeps d done s) {x : GroupSent} {m : SenderKeyMessage}
    (hx : GroupGenuine d x m) (hold : done m.iteration) :
    GroupCipher.decrypt g n x.bytes = ⟨none, .error .duplicateMessage⟩ :=
  used_duplicate (by rw [hx.keyId]; exact h1) h2.pub hx.parses hx.signed ⟨h2.good, (h2.used _ hx.later).1 hold⟩

/-! ## The invariant -/

/-- The key material of an iteration. -/
def bSeed (d0 : SenderKeyDistributionMessage) (i : Nat) : Bytes := groupSeed (chainAt d0.chainKey i)

/-- A message sent with the sender key `d0` at iteration `i`. -/
structure BSent (d0 : SenderKeyDistributionMessage) (x : GroupSent) (i : Nat) : Prop where
  long : 64 < x.bytes.length
  genuine : ∃ m, GroupGenuine d0 x m ∧ m.iteration = i
  made : ∃ ct sig, x.bytes = groupMessage d0.id i ct ++ sig ∧ sig.length = 64 ∧
    AES.encrypt (groupCipherKey (bSeed d0 i)) (groupIv (bSeed d0 i)) x.plaintext = .ok ct

theorem BSent.number {d0 : SenderKeyDistributionMessage} {x : GroupSent} {i : Nat} (h : BSent d0 x i) : HasNumber x.bytes i := by
  obtain ⟨m, h1, h2⟩ := h.genuine
  exact ⟨m, h1.parses, h2⟩

/-- Used according to the log. -/
def UsedIn (m : M) (n : SenderKeyName) (log : RoomLog M) (i : Nat) : Prop := ReadNumber m n log i ∨ SentNumber n log i

/-- The owner of a name. -/
structure BOwner (g : GroupStore) (m : M) (n : SenderKeyName) (d0 : SenderKeyDistributionMessage) (log : RoomLog M) : Prop where
  state : ∃ s, sendingState (g n) = some s ∧ s.senderKeyId.getD 0 = d0.id ∧ LastUsed s ∧ iterationOf s < 2 ^ 32 ∧
    Keeps d0 (UsedIn m n log) s ∧ ∃ seed, seed.length = 32 ∧ SenderKeyState.getSigningKeyPrivate s = C.genPriv seed ∧
      (s.senderSigningKey.getD {}).pub = some (5 :: C.genPub (C.genPriv seed)) ∧ d0.signatureKey = C.genPub (C.genPriv seed)
  sentOnce : (sentUnder n log).Pairwise fun x y => ∀ i, HasNumber x.bytes i → ¬ HasNumber y.bytes i
  readOnce : (readBy m n log).Pairwise fun p q => ∀ i, HasNumber p.1 i → ¬ HasNumber q.1 i
  apart : ∀ i, ReadNumber m n log i → ¬ SentNumber n log i

/-- A member other than the owner. -/
structure BMember (g : GroupStore) (m : M) (n : SenderKeyName) (log : RoomLog M)
    (announced : SenderKeyDistributionMessage → Prop) : Prop where
  noPriv : ∀ t ∈ (g n).senderKeyStates, SenderKeyState.getSigningKeyPrivate t = []
  unheard : heardBy m n log = [] → (g n).senderKeyStates = []
  quiet : sentUnder n log = []
  holds : ∀ d rest, heardBy m n log = d :: rest → announced d ∧
    ∃ s, stateFor (g n) d.id = some s ∧ Holds d (ReadNumber m n log) s ∧ NotBefore d.iteration s
  later : ∀ p ∈ readBy m n log, ∃ i d rest, HasNumber p.1 i ∧ heardBy m n log = d :: rest ∧ d.iteration ≤ i
  readOnce : (readBy m n log).Pairwise fun p q => ∀ i, HasNumber p.1 i → ¬ HasNumber q.1 i

/-- A name for which no sender key has been created. -/
structure BUntold (r : Room M) (n : SenderKeyName) : Prop where
  states : ∀ m, (r.store m n).senderKeyStates = []
  sent : sentUnder n r.log = []
  heard : ∀ m, heardBy m n r.log = []
  read : ∀ m, readBy m n r.log = []
  announced : ∀ d, ¬ Announced n r.log d

/-- A name with a sender key. -/
structure BRunning (owner : SenderKeyName → M) (r : Room M) (n : SenderKeyName) (d0 : SenderKeyDistributionMessage) : Prop where
  id : d0.id < 2 ^ 32
  it : d0.iteration = 0
  klen : d0.chainKey.length = 32
  slen : d0.signatureKey.length = 32
  told : ∃ d, Announced n r.log d
  sent : ∀ x ∈ sentUnder n r.log, ∃ i, BSent d0 x i
  announced : ∀ d, Announced n r.log d → Described d0 d.iteration d ∧ d.iteration < 2 ^ 32
  reads : ∀ m, ∀ p ∈ readBy m n r.log, ∃ x ∈ sentUnder n r.log, SameBody p.1 x.bytes ∧ p.2 = x.plaintext
  party : BOwner (r.store (owner n)) (owner n) n d0 (r.own (owner n))
  member : ∀ m, m ≠ owner n → BMember (r.store m) m n (r.own m) (Announced n r.log)

theorem BMember.mono {g : GroupStore} {m : M} {n : SenderKeyName} {log : RoomLog M} {P Q : SenderKeyDistributionMessage → Prop}
    (h : BMember g m n log P) (hPQ : ∀ d, P d → Q d) : BMember g m n log Q :=
  ⟨h.noPriv, h.unheard, h.quiet, fun d rest hd => ⟨hPQ d (h.holds d rest hd).1, (h.holds d rest hd).2⟩, h.later, h.readOnce⟩

/-- The log without a trace of the name. -/
structure SameTrace (m : M) (n : SenderKeyName) (log log' : RoomLog M) : Prop where
  sent : sentUnder n log' = sentUnder n log
  heard : heardBy m n log' = heardBy m n log
  read : readBy m n log' = readBy m n log

omit C in
theorem NoTrace.same {n : SenderKeyName} {e : RoomEntry M} (h : NoTrace n e) (m : M) (log : RoomLog M) :
    SameTrace m n log (log ++ [e]) :=
  ⟨by rw [sentUnder_snoc, h.sent, List.append_nil], by rw [heardBy_snoc, h.heard, List.append_nil],
    by rw [readBy_snoc, h.read, List.append_nil]⟩

omit C in
theorem SameTrace.readNumber {m : M} {n : SenderKeyName} {log log' : RoomLog M} (h : SameTrace m n log log') :
    ReadNumber m n log' = ReadNumber m n log := by
  funext i; unfold ReadNumber; rw [h.read]

omit C in
theorem SameTrace.sentNumber {m : M} {n : SenderKeyName} {log log' : RoomLog M} (h : SameTrace m n log log') :
    SentNumber n log' = SentNumber n log := by
  funext i; unfold SentNumber; rw [h.sent]

theorem BOwner.frame {g g' : GroupStore} {m : M} {n : SenderKeyName} {d0 : SenderKeyDistributionMessage} {log log' : RoomLog M}
    (h : BOwner g m n d0 log) (hg : g' n = g n) (hl : SameTrace m n log log') : BOwner g' m n d0 log' := by
  have e : UsedIn m n log' = UsedIn m n log := by
    funext i; unfold UsedIn; rw [hl.readNumber, hl.sentNumber]
  exact ⟨by rw [hg, e]; exact h.state, by rw [hl.sent]; exact h.sentOnce, by rw [hl.read]; exact h.readOnce,
    by rw [hl.readNumber, hl.sentNumber]; exact h.apart⟩

theorem BMember.frame {g g' : GroupStore} {m : M} {n : SenderKeyName} {log log' : RoomLog M}
    {P : SenderKeyDistributionMessage → Prop} (h : BMember g m n log P) (hg : g' n = g n) (hl : SameTrace m n log log') :
    BMember g' m n log' P := by
  exact ⟨by rw [hg]; exact h.noPriv, by rw [hg, hl.heard]; exact h.unheard, by rw [hl.sent]; exact h.quiet,
    by rw [hg, hl.heard, hl.readNumber]; exact h.holds, by rw [hl.read, hl.heard]; exact h.later, by rw [hl.read]; exact h.readOnce⟩

/-- A call, seen from the others. -/
theorem BRunning.update {owner : SenderKeyName → M} {r : Room M} {n : SenderKeyName} {d0 : SenderKeyDistributionMessage}
    (h : BRunning owner r n d0) (m : M) (c : GroupCall) {rep : Res GroupReply} (hrep : (c.run (r.store m)).result = rep)
    (hsent : ∀ x ∈ sentUnder n [(⟨m, c, rep⟩ : RoomEntry M)], ∃ i, BSent d0 x i)
    (hann : ∀ d, Announced n [(⟨m, c, rep⟩ : RoomEntry M)] d → Described d0 d.iteration d ∧ d.iteration < 2 ^ 32)
    (hread : ∀ y, ∀ p ∈ readBy y n [(⟨m, c, rep⟩ : RoomEntry M)], ∃ x ∈ sentUnder n r.log, SameBody p.1 x.bytes ∧ p.2 = x.plaintext)
    (hown : m = owner n → BOwner (c.next (r.store m)) m n d0 (r.own m ++ [⟨m, c, rep⟩]))
    (hmem : m ≠ owner n → BMember (c.next (r.store m)) m n (r.own m ++ [⟨m, c, rep⟩]) (Announced n r.log)) :
    BRunning owner (r.call m c) n d0 := by
  subst hrep
  refine ⟨h.id, h.it, h.klen, h.slen, ?_, ?_, ?_, ?_, ?_, ?_⟩
  · obtain ⟨d, hd⟩ := h.told
    exact ⟨d, announced_append.2 (.inl hd)⟩
  · intro x hx
    have hx : x ∈ sentUnder n (r.log ++ [_]) := hx
    rw [sentUnder_snoc] at hx
    rcases List.mem_append.1 hx with hx | hx
    · exact h.sent x hx
    · exact hsent x hx
  · intro d hd
    rcases announced_append.1 hd with hd | hd
    · exact h.announced d hd
    · exact hann d hd
  · intro y p hp
    have hp : p ∈ readBy y n (r.log ++ [_]) := hp
    rw [readBy_snoc] at hp
    have : ∃ x ∈ sentUnder n r.log, SameBody p.1 x.bytes ∧ p.2 = x.plaintext := by
      rcases List.mem_append.1 hp with hp | hp
      · exact h.reads y p hp
      · exact hread y p hp
    obtain ⟨x, hx, h1⟩ := this
    exact ⟨x, sentUnder_subset (fun e he => List.mem_append_left _ he) x hx, h1⟩
  · show BOwner (if owner n = m then c.next (r.store m) else r.store (owner n)) (owner n) n d0
      (if owner n = m then r.own m ++ [_] else r.own (owner n))
    by_cases hm : owner n = m
    · rw [if_pos hm, if_pos hm, hm]; exact hown hm.symm
    · rw [if_neg hm, if_neg hm]; exact h.party
  · intro y hy
    show BMember (if y = m then c.next (r.store m) else r.store y) y n (if y = m then r.own m ++ [_] else r.own y) _
    have hmono : ∀ d, Announced n r.log d → Announced n (r.call m c).log d := fun d hd => announced_append.2 (.inl hd)
    by_cases hm : y = m
    · rw [if_pos hm, if_pos hm, hm]; exact (hmem (hm ▸ hy)).mono hmono
    · rw [if_neg hm, if_neg hm]; exact (h.member y hy).mono hmono

/-- A call without a trace. -/
theorem BRunning.idle {owner : SenderKeyName → M} {r : Room M} {n : SenderKeyName} {d0 : SenderKeyDistributionMessage}
    (h : BRunning owner r n d0) (m : M) (c : GroupCall) (hS : c.next (r.store m) n = r.store m n)
    (ht : NoTrace n (⟨m, c, (c.run (r.store m)).result⟩ : RoomEntry M)) : BRunning owner (r.call m c) n d0 := by
  refine h.update m c rfl ?_ ?_ ?_ ?_ ?_
  · rw [ht.sent]; exact fun _ hx => nomatch hx
  · exact fun d hd => absurd hd (ht.announced d)
  · intro y; rw [ht.read]; exact fun _ hx => nomatch hx
  · rintro rfl; exact h.party.frame hS (ht.same _ _)
  · intro hm; exact (h.member m hm).frame hS (ht.same _ _)

theorem BUntold.idle {r : Room M} {n : SenderKeyName} (h : BUntold r n) (m : M) (c : GroupCall)
    (hS : c.next (r.store m) n = r.store m n) (ht : NoTrace n (⟨m, c, (c.run (r.store m)).result⟩ : RoomEntry M)) :
    BUntold (r.call m c) n := by
  refine ⟨?_, ?_, ?_, ?_, ?_⟩
  · intro x
    show ((if x = m then c.next (r.store m) else r.store x) n).senderKeyStates = []
    by_cases hx : x = m
    · rw [if_pos hx, hS]; exact h.states m
    · rw [if_neg hx]; exact h.states x
  · rw [show (r.call m c).log = r.log ++ [_] from rfl, sentUnder_snoc, ht.sent, h.sent]; rfl
  · intro x; rw [show (r.call m c).log = r.log ++ [_] from rfl, heardBy_snoc, ht.heard, h.heard]; rfl
  · intro x; rw [show (r.call m c).log = r.log ++ [_] from rfl, readBy_snoc, ht.read, h.read]; rfl
  · intro d hd
    rcases announced_append.1 hd with hd | hd
    · exact h.announced d hd
    · exact ht.announced d hd

/-! ## The steps -/

theorem Keeps.public_key {d0 : SenderKeyDistributionMessage} {done : Nat → Prop} {s : SenderKeyState} (h : Keeps d0 done s)
    (h0 : d0.iteration = 0) : chainKeyOf s = chainAt d0.chainKey (iterationOf s) := by
  have := h.chain.2
  rw [h0, Nat.sub_zero] at this
  exact this

/-- What the owner sends. -/
theorem owner_sends (hC : C.Lawful) {d0 : SenderKeyDistributionMessage} {done : Nat → Prop} {s : SenderKeyState}
    (hid : s.senderKeyId.getD 0 = d0.id) (hk : Keeps d0 done s) (h0 : d0.iteration = 0) (hidlt : d0.id < 2 ^ 32)
    (hl : d0.signatureKey.length = 32)
    (hpair : ∃ seed, seed.length = 32 ∧ SenderKeyState.getSigningKeyPrivate s = C.genPriv seed ∧
      (s.senderSigningKey.getD {}).pub = some (5 :: C.genPub (C.genPriv seed)) ∧ d0.signatureKey = C.genPub (C.genPriv seed))
    {g : GroupStore} {n : SenderKeyName} (hs : sendingState (g n) = some s) {pt rand b : Bytes} (hpt : pt.length < 2 ^ 62)
    (hrand : rand.length = 64) (hb : (GroupCipher.encrypt g n pt rand).result = .ok b) :
    BSent d0 ⟨n, pt, b⟩ (iterationOf s) ∧ iterationOf s + 1 < 2 ^ 32 ∧
      sendingState ((GroupCall.encrypt n pt rand).next g n) = some (sentOn s) := by
  obtain ⟨s', m, q1, q2, q3, q4, q5, q6, q7, q8, q9⟩ := encrypt_parses hC hpt hrand hb
  have := Option.some.inj (hs.symm.trans q1)
  subst this
  have hch := hk.public_key h0
  refine ⟨⟨encrypt_long hC hb, ⟨m, ⟨q2, by rw [q3, hid], by rw [h0]; exact Nat.zero_le _, by rw [q4]; exact q8, ?_, ?_, hl⟩, q4⟩, ?_⟩,
    q8, next_sent hs q9⟩
  · obtain ⟨seed, _, h1, _, h3⟩ := hpair
    have q5 := q5 ⟨q6, seed, h1⟩
    rw [h1, ← h3] at q5
    exact q5
  · rw [q4, h0, Nat.sub_zero, ← hch]
    exact q7
  · obtain ⟨s2, ct, msg, r1, r2, r3, r4, _, _⟩ := GroupCipher.encrypt_ok hb
    have := Option.some.inj (hs.symm.trans r1)
    subst this
    rw [senderMessageKey_eq hC.hmac_len, hch] at r2
    have hct : ct.length < 2 ^ 64 := by
      obtain ⟨ct', c1, _, _, _, c5⟩ := C01_cipher_roundtrip hC (groupCipherKey (groupSeed (chainAt d0.chainKey (iterationOf s))))
        (groupIv (groupSeed (chainAt d0.chainKey (iterationOf s)))) pt (.inr (.inr (groupCipherKey_length hC.hmac_len _)))
        (groupIv_length hC.hmac_len _)
      have : ct = ct' := Except.ok.inj (r2.symm.trans c1)
      subst this
      have hpt' : pt.length < 2 ^ 62 := hpt
      omega
    have hkid : SenderKeyState.getKeyId s = d0.id := hid
    rw [hkid, senderkey_create hidlt (by omega) hct] at r3
    cases hsig : C.calcSig rand (SenderKeyState.getSigningKeyPrivate s) (groupMessage d0.id (iterationOf s) ct) with
    | none => rw [hsig] at r3; cases r3
    | some sig =>
      rw [hsig] at r3
      have := Except.ok.inj r3
      subst this
      exact ⟨ct, sig, r4, (hC.sig_size _ _ _ _ hsig).2, r2⟩

omit C [DecidableEq M] in
theorem sentNumber_snoc {n : SenderKeyName} {log : RoomLog M} {x : GroupSent} {e : RoomEntry M} (he : sentUnder n [e] = [x])
    {i : Nat} (hx : HasNumber x.bytes i) (j : Nat) : SentNumber n (log ++ [e]) j ↔ SentNumber n log j ∨ j = i := by
  unfold SentNumber
  rw [sentUnder_snoc, he]
  constructor
  · rintro ⟨y, hy, h⟩
    rcases List.mem_append.1 hy with hy | hy
    · exact .inl ⟨y, hy, h⟩
    · rw [List.mem_singleton.1 hy] at h
      exact .inr (h.unique hx)
  · rintro (⟨y, hy, h⟩ | rfl)
    · exact ⟨y, List.mem_append_left _ hy, h⟩
    · exact ⟨x, List.mem_append_right _ (List.mem_singleton.2 rfl), hx⟩

omit C in
theorem readNumber_snoc {m : M} {n : SenderKeyName} {log : RoomLog M} {p : Bytes × Bytes} {e : RoomEntry M} (he : readBy m n [e] = [p])
    {i : Nat} (hx : HasNumber p.1 i) (j : Nat) : ReadNumber m n (log ++ [e]) j ↔ ReadNumber m n log j ∨ j = i := by
  unfold ReadNumber
  rw [readBy_snoc, he]
  constructor
  · rintro ⟨y, hy, h⟩
    rcases List.mem_append.1 hy with hy | hy
    · exact .inl ⟨y, hy, h⟩
    · rw [List.mem_singleton.1 hy] at h
      exact .inr (h.unique hx)
  · rintro (⟨y, hy, h⟩ | rfl)
    · exact ⟨y, List.mem_append_left _ hy, h⟩
    · exact ⟨p, List.mem_append_right _ (List.mem_singleton.2 rfl), hx⟩

/-- Only the owner can encrypt. -/
theorem BRunning.encrypts (hC : C.Lawful) {owner : SenderKeyName → M} {r : Room M} {n : SenderKeyName} {d0 : SenderKeyDistributionMessage}
    (h : BRunning owner r n d0) (m : M) {pt rand : Bytes} (hpt : pt.length < 2 ^ 62) (hrand : rand.length = 64) {b : Bytes}
    (hb : (GroupCipher.encrypt (r.store m) n pt rand).result = .ok b) : m = owner n := by
  apply Decidable.byContradiction
  intro hm
  obtain ⟨s, x, q1, _, _, _, _, q6, _⟩ := encrypt_parses hC hpt hrand hb
  have := (h.member m hm).noPriv s (List.mem_of_mem_head? q1)
  rw [this] at q6
  cases q6

theorem BRunning.encrypt (hC : C.Lawful) {owner : SenderKeyName → M} {r : Room M} {n : SenderKeyName} {d0 : SenderKeyDistributionMessage}
    (h : BRunning owner r n d0) (m : M) {pt rand : Bytes} (hpt : pt.length < 2 ^ 62) (hrand : rand.length = 64) {b : Bytes}
    (hb : (GroupCipher.encrypt (r.store m) n pt rand).result = .ok b) : BRunning owner (r.call m (.encrypt n pt rand)) n d0 := by
  have hm := h.encrypts hC m hpt hrand hb
  subst hm
  have hrep : ((GroupCall.encrypt n pt rand).run (r.store (owner n))).result = .ok (.bytes b) := by
    rw [run_encrypt]; unfold GroupCall.mapG; rw [hb]
  have e1 : sentUnder n [(⟨owner n, .encrypt n pt rand, .ok (.bytes b)⟩ : RoomEntry M)] = [⟨n, pt, b⟩] := by simp [sentUnder]
  have e3 : ∀ x, readBy x n [(⟨owner n, .encrypt n pt rand, .ok (.bytes b)⟩ : RoomEntry M)] = [] := fun x => rfl
  obtain ⟨s, hs, hid, hlast, hlt, hk, hpair⟩ := h.party.state
  obtain ⟨hsent, hfit, hnext⟩ := owner_sends hC hid hk h.it h.id h.slen hpair hs hpt hrand hb
  refine h.update _ _ hrep ?_ ?_ ?_ ?_ ?_
  · rw [e1]; intro x hx; rw [List.mem_singleton.1 hx]; exact ⟨_, hsent⟩
  · rintro d ⟨e, he, rnd, d1, q, _⟩
    rw [List.mem_singleton.1 he] at q; cases q
  · intro y; rw [e3]; exact fun _ q => nomatch q
  · intro _
    have hread : ∀ j, ReadNumber (owner n) n (r.own (owner n) ++ [⟨owner n, .encrypt n pt rand, .ok (.bytes b)⟩]) j ↔
        ReadNumber (owner n) n (r.own (owner n)) j := by
      intro j; unfold ReadNumber; rw [readBy_snoc, e3, List.append_nil]
    have hsn := sentNumber_snoc (log := r.own (owner n)) e1 hsent.number
    have hnot : ¬ UsedIn (owner n) n (r.own (owner n)) (iterationOf s) := by
      intro q
      have := ((hk.used _ (by rw [h.it]; exact Nat.zero_le _)).1 q).1
      omega
    refine ⟨⟨sentOn s, hnext, hid, hlast.step (.send hfit) hk.good, hfit, ?_, hpair⟩, ?_, ?_, ?_⟩
    · refine (hk.sent hfit).congr ?_
      intro j _
      unfold UsedIn
      rw [hread, hsn, or_assoc]
    · rw [sentUnder_snoc, e1, List.pairwise_append]
      refine ⟨h.party.sentOnce, List.pairwise_singleton _ _, ?_⟩
      intro x hx y hy i hi hi'
      rw [List.mem_singleton.1 hy] at hi'
      have := hsent.number.unique hi'
      subst this
      exact hnot (.inr ⟨x, hx, hi⟩)
    · rw [readBy_snoc, e3, List.append_nil]; exact h.party.readOnce
    · intro i hi hi'
      rw [hread] at hi
      rcases (hsn i).1 hi' with q | rfl
      · exact h.party.apart i hi q
      · exact hnot (.inl hi)
  · intro q; exact absurd rfl q

theorem owner_announces (hC : C.Lawful) {d0 : SenderKeyDistributionMessage} {done : Nat → Prop} {s : SenderKeyState}
    (hid : s.senderKeyId.getD 0 = d0.id) (hk : Keeps d0 done s) (h0 : d0.iteration = 0) (hkl : d0.chainKey.length = 32)
    (hl : d0.signatureKey.length = 32) {r : SenderKeyRecord} (hs : sendingState r = some s) {d d' : SenderKeyDistributionMessage}
    (hd : GroupSessionBuilder.wrapAssert (GroupSessionBuilder.distributionOf r) = .ok d)
    (hp : SenderKeyDistributionMessage.parse d.serialized = .ok d') :
    Described d0 (iterationOf s) d' ∧ iterationOf s < 2 ^ 32 := by
  have hch := hk.public_key h0
  have hcr := distribution_made hs hk.pub hd
  have hck : (chainKeyOf s).length < 2 ^ 63 := by
    rw [hch, chainAt_len32 hC hkl]; omega
  obtain ⟨rfl, h1, h2, h3, h4, _, h6⟩ := announcement_parses hcr hck hl hp
  exact ⟨⟨by rw [h1, hid], h2, by rw [h3, hch], h4⟩, h6⟩

/-- The owner announces the sender key again. -/
theorem BRunning.create (hC : C.Lawful) {owner : SenderKeyName → M} {r : Room M} {n : SenderKeyName} {d0 : SenderKeyDistributionMessage}
    (h : BRunning owner r n d0) {rnd : GroupSessionBuilder.CreateRand} {d : SenderKeyDistributionMessage}
    (hd : (GroupSessionBuilder.create (r.store (owner n)) n rnd).result = .ok d) :
    BRunning owner (r.call (owner n) (.create n rnd)) n d0 := by
  obtain ⟨s, hs, hid, hlast, hlt, hk, hpair⟩ := h.party.state
  have hne : (r.store (owner n) n).senderKeyStates ≠ [] := fun q => by
    rw [sendingState_none.2 q] at hs; cases hs
  have hrep : ((GroupCall.create n rnd).run (r.store (owner n))).result = .ok (.distribution d) := by
    rw [run_create]; unfold GroupCall.mapG; rw [hd]
  rw [create_again hne] at hd
  have e1 : sentUnder n [(⟨owner n, .create n rnd, .ok (.distribution d)⟩ : RoomEntry M)] = [] := rfl
  have e2 : ∀ x, heardBy x n [(⟨owner n, .create n rnd, .ok (.distribution d)⟩ : RoomEntry M)] = [] := fun x => rfl
  have e3 : ∀ x, readBy x n [(⟨owner n, .create n rnd, .ok (.distribution d)⟩ : RoomEntry M)] = [] := fun x => rfl
  refine h.update _ _ hrep ?_ ?_ ?_ ?_ ?_
  · rw [e1]; exact fun _ q => nomatch q
  · rintro d' ⟨e, he, rnd', d1, q1, q2, q3⟩
    rw [List.mem_singleton.1 he] at q1 q2
    cases q2
    obtain ⟨q4, q5⟩ := owner_announces hC hid hk h.it h.klen h.slen hs hd q3
    have := q4.it
    rw [← this] at q4 q5
    exact ⟨q4, q5⟩
  · intro y; rw [e3]; exact fun _ q => nomatch q
  · intro _
    refine h.party.frame (by rw [next_create_again hne]) ⟨?_, ?_, ?_⟩
    · rw [sentUnder_snoc, e1, List.append_nil]
    · rw [heardBy_snoc, e2, List.append_nil]
    · rw [readBy_snoc, e3, List.append_nil]
  · intro q; exact absurd rfl q

/-- Someone processes an announcement. -/
theorem BRunning.process (hC : C.Lawful) {owner : SenderKeyName → M} {r : Room M} {n : SenderKeyName} {d0 : SenderKeyDistributionMessage}
    (h : BRunning owner r n d0) (m : M) {d : SenderKeyDistributionMessage} (hd : Announced n r.log d) :
    BRunning owner (r.call m (.process n d)) n d0 := by
  obtain ⟨hdesc, hk⟩ := h.announced d hd
  have hsmall : d.id < 2 ^ 32 ∧ d.iteration < 2 ^ 32 := ⟨by rw [hdesc.id]; exact h.id, hk⟩
  have hrep : ((GroupCall.process n d).run (r.store m)).result = .ok .done := by
    rw [run_process, process_good hsmall.1 hsmall.2]; rfl
  have e1 : sentUnder n [(⟨m, .process n d, .ok .done⟩ : RoomEntry M)] = [] := rfl
  have e2 : heardBy m n [(⟨m, .process n d, .ok .done⟩ : RoomEntry M)] = [d] := by simp [heardBy]
  have e3 : ∀ x, readBy x n [(⟨m, .process n d, .ok .done⟩ : RoomEntry M)] = [] := fun x => rfl
  have hread : ReadNumber m n (r.own m ++ [⟨m, .process n d, .ok .done⟩]) = ReadNumber m n (r.own m) := by
    funext j; unfold ReadNumber; rw [readBy_snoc, e3, List.append_nil]
  refine h.update _ _ hrep ?_ ?_ ?_ ?_ ?_
  · rw [e1]; exact fun _ q => nomatch q
  · rintro d ⟨e, he, rnd, d1, q, _⟩
    rw [List.mem_singleton.1 he] at q; cases q
  · intro y; rw [e3]; exact fun _ q => nomatch q
  · rintro rfl
    have hsn : SentNumber n (r.own (owner n) ++ [⟨owner n, .process n d, .ok .done⟩]) = SentNumber n (r.own (owner n)) := by
      funext j; unfold SentNumber; rw [sentUnder_snoc, e1, List.append_nil]
    have hu : UsedIn (owner n) n (r.own (owner n) ++ [⟨owner n, .process n d, .ok .done⟩]) = UsedIn (owner n) n (r.own (owner n)) := by
      funext j; unfold UsedIn; rw [hread, hsn]
    obtain ⟨s, hs, hrest⟩ := h.party.state
    refine ⟨⟨s, ?_, by rw [hu]; exact hrest⟩, ?_, ?_, by rw [hread, hsn]; exact h.party.apart⟩
    · rw [next_process_good hsmall]
      unfold sendingState at hs ⊢
      rw [List.head?_append, hs]
      rfl
    · rw [sentUnder_snoc, e1, List.append_nil]; exact h.party.sentOnce
    · rw [readBy_snoc, e3, List.append_nil]; exact h.party.readOnce
  · intro hm
    have hmem := h.member m hm
    refine ⟨?_, ?_, ?_, ?_, ?_, ?_⟩
    · intro t ht
      rw [next_process_good hsmall] at ht
      rcases List.mem_append.1 ht with ht | ht
      · exact hmem.noPriv t ht
      · rw [List.mem_singleton.1 ht]; rfl
    · intro q; rw [heardBy_snoc, e2] at q; simp at q
    · rw [sentUnder_snoc, e1, List.append_nil]; exact hmem.quiet
    · intro d1 rest q
      rw [heardBy_snoc, e2] at q
      rw [hread]
      cases hh : heardBy m n (r.own m) with
      | nil =>
        rw [hh] at q
        cases q
        have hnil := hmem.unheard hh
        have hnone : stateFor (r.store m n) d.id = none := by unfold stateFor; rw [hnil]; rfl
        obtain ⟨s, q1, q2⟩ := process_holds hsmall (by rw [hdesc.sig]; exact h.slen) hnone
        have q3 : stateFor ((GroupCall.process n d).next (r.store m) n) d.id = some (addedState d) := by
          rw [next_process_good hsmall, hnil]
          unfold stateFor
          simp [addedState]
        have : s = addedState d := Option.some.inj (q1.symm.trans q3)
        subst this
        refine ⟨hd, _, q3, q2.congr ?_, Nat.le_refl _, fun j hj => by cases hj⟩
        intro i _
        refine ⟨False.elim, ?_⟩
        rintro ⟨p, hp, _⟩
        obtain ⟨_, _, _, _, q, _⟩ := hmem.later p hp
        rw [hh] at q
        cases q
      | cons d2 rest2 =>
        rw [hh] at q
        obtain ⟨rfl, _⟩ := List.cons.inj q
        obtain ⟨q1, s, q3, q4, q5⟩ := hmem.holds d2 rest2 hh
        obtain ⟨s', r1, r2⟩ := MemberHolds.other hC ⟨s, q3, q4⟩ (.process n d) (fun _ _ q => (nomatch q))
        have q6 : stateFor ((GroupCall.process n d).next (r.store m) n) d2.id = some s := by
          rw [next_process_good hsmall]
          unfold stateFor at q3 ⊢
          simp only [List.find?_append, q3, Option.some_or]
        have : s' = s := Option.some.inj (r1.symm.trans q6)
        subst this
        exact ⟨q1, s', q6, q4, q5⟩
    · intro p hp
      rw [readBy_snoc, e3, List.append_nil] at hp
      obtain ⟨i, d1, rest, q1, q2, q3⟩ := hmem.later p hp
      exact ⟨i, d1, rest ++ [d], q1, by rw [heardBy_snoc, e2, q2]; rfl, q3⟩
    · rw [readBy_snoc, e3, List.append_nil]; exact hmem.readOnce

/-! ## What becomes of a message -/

/-- Bytes that verify, for a message of the owner. -/
theorem BSent.arrives {d0 : SenderKeyDistributionMessage} {y : GroupSent} {i : Nat} (hy : BSent d0 y i) {b : Bytes}
    (hb : SameBody b y.bytes) {x : SenderKeyMessage} (hx : SenderKeyMessage.parse b = .ok x)
    (hv : x.verifySignature d0.signatureKey = .ok ()) :
    GroupGenuine d0 ⟨y.name, y.plaintext, b⟩ x ∧ x.iteration = i := by
  obtain ⟨m, hm, hmi⟩ := hy.genuine
  obtain ⟨hg, hxi⟩ := hm.resigned hb hy.long hx hv
  exact ⟨hg, by omega⟩

theorem BOwner.keeps {g : GroupStore} {m : M} {n : SenderKeyName} {d0 : SenderKeyDistributionMessage} {log : RoomLog M}
    (h : BOwner g m n d0 log) : ∃ s, stateFor (g n) d0.id = some s ∧ Keeps d0 (UsedIn m n log) s := by
  obtain ⟨s, hs, hid, _, _, hk, _⟩ := h.state
  refine ⟨s, ?_, hk⟩
  rw [← hid]
  exact SenderKeyRecord.sendingState_stateFor hs

/-- A message from before the announcement. -/
theorem BMember.early {g : GroupStore} {m : M} {n : SenderKeyName} {log : RoomLog M} {P : SenderKeyDistributionMessage → Prop}
    (h : BMember g m n log P) {d d0 : SenderKeyDistributionMessage} {rest : List SenderKeyDistributionMessage}
    (hd : heardBy m n log = d :: rest) (hk : Described d0 d.iteration d) {x : SenderKeyMessage} {b : Bytes} {y : GroupSent}
    (hg : GroupGenuine d0 ⟨y.name, y.plaintext, b⟩ x) (hi : x.iteration < d.iteration) :
    GroupCipher.decrypt g n b = ⟨none, .error .duplicateMessage⟩ := by
  obtain ⟨_, s, h1, h2, h4⟩ := h.holds d rest hd
  refine used_duplicate (m := x) (s := s) (pub := d0.signatureKey) (by rw [hg.keyId, ← hk.id]; exact h1)
    (by rw [← hk.sig]; exact h2.pub) hg.parses hg.signed ?_
  refine ⟨h2.good, Nat.lt_of_lt_of_le (by omega) h4.1, fun q => ?_⟩
  have := h4.2 _ q
  omega

/-- Someone accepts a message. -/
theorem BRunning.decrypt (hC : C.Lawful) {owner : SenderKeyName → M} {r : Room M} {n : SenderKeyName} {d0 : SenderKeyDistributionMessage}
    (h : BRunning owner r n d0) (m : M) {b pt : Bytes} (hsent : ∃ y ∈ sentUnder n r.log, SameBody b y.bytes)
    (hb : (GroupCipher.decrypt (r.store m) n b).result = .ok pt) : BRunning owner (r.call m (.decrypt n b)) n d0 := by
  obtain ⟨y, hy, hby⟩ := hsent
  obtain ⟨i, hyi⟩ := h.sent y hy
  obtain ⟨m0, hm0, hmi⟩ := hyi.genuine
  obtain ⟨x, s, j, pub, key, s', p1, p2, p3, p4, p5, p6, p7⟩ := GroupCipher.decrypt_ok hb
  obtain ⟨p2, _⟩ := SenderKeyRecord.getStateById_ok p2
  have hkid : x.keyId = d0.id := by
    rw [(hby.symm.parse hyi.long hm0.parses p1).1]; exact hm0.keyId
  have hxi : x.iteration = i := by
    rw [(hby.symm.parse hyi.long hm0.parses p1).2.1]; exact hmi
  have hnum : HasNumber b i := ⟨x, p1, hxi⟩
  have hrep : ((GroupCall.decrypt n b).run (r.store m)).result = .ok (.bytes pt) := by
    rw [run_decrypt]; unfold GroupCall.mapG; rw [hb]
  have e1 : sentUnder n [(⟨m, .decrypt n b, .ok (.bytes pt)⟩ : RoomEntry M)] = [] := rfl
  have e2 : ∀ z, heardBy z n [(⟨m, .decrypt n b, .ok (.bytes pt)⟩ : RoomEntry M)] = [] := fun z => rfl
  have e3 : readBy m n [(⟨m, .decrypt n b, .ok (.bytes pt)⟩ : RoomEntry M)] = [(b, pt)] := by simp [readBy]
  have e3' : ∀ z, z ≠ m → readBy z n [(⟨m, .decrypt n b, .ok (.bytes pt)⟩ : RoomEntry M)] = [] := by
    intro z hz; simp [readBy, Ne.symm hz]
  have hrd := readNumber_snoc (log := r.own m) e3 hnum
  -- what has been read, and the parts of the others
  have key : pt = y.plaintext ∧
      (m = owner n → BOwner ((GroupCall.decrypt n b).next (r.store m)) m n d0 (r.own m ++ [⟨m, .decrypt n b, .ok (.bytes pt)⟩])) ∧
      (m ≠ owner n → BMember ((GroupCall.decrypt n b).next (r.store m)) m n (r.own m ++ [⟨m, .decrypt n b, .ok (.bytes pt)⟩])
        (Announced n r.log)) := by
    by_cases hown : m = owner n
    · subst hown
      obtain ⟨s0, hs0, hid, hlast, hlt, hk, hpair⟩ := h.party.state
      have hfor := SenderKeyRecord.sendingState_stateFor hs0
      rw [hid] at hfor
      have : s = s0 := by rw [← hkid] at hfor; exact Option.some.inj (p2.symm.trans hfor)
      subst this
      rw [hk.pub] at p3
      cases p3
      obtain ⟨hg, _⟩ := hyi.arrives hby p1 p4
      have hnu : ¬ UsedIn (owner n) n (r.own (owner n)) x.iteration := by
        intro q
        rw [keeps_again hfor hk hg q] at hb
        cases hb
      obtain ⟨t1, s2, j2, t2, t3, t4, t5, t6⟩ := keeps_new hC hfor hk hg hnu
      rw [t1] at hb
      have hpt : pt = y.plaintext := (Except.ok.inj hb).symm
      refine ⟨hpt, fun _ => ?_, fun q => absurd rfl q⟩
      obtain ⟨s3, u1, u2⟩ := (next_record (r.store (owner n)) (.decrypt n b) n).keeps_sending hs0
      have hid3 : s3.senderKeyId.getD 0 = d0.id := by
        rcases u2 with rfl | u2
        · exact hid
        · rw [u2.id]; exact hid
      have : s3 = s2 := by
        have := SenderKeyRecord.sendingState_stateFor u1
        rw [hid3] at this
        exact Option.some.inj (this.symm.trans t4)
      subst this
      have hsn : ∀ k, SentNumber n (r.own (owner n) ++ [⟨owner n, .decrypt n b, .ok (.bytes pt)⟩]) k ↔ SentNumber n (r.own (owner n)) k := by
        intro k; unfold SentNumber; rw [sentUnder_snoc, e1, List.append_nil]
      rw [hxi] at hnu t6
      refine ⟨⟨s3, u1, hid3, hlast.step t5 hk.good, ?_, t6.congr ?_, ?_⟩, ?_, ?_, ?_⟩
      · have hfit := hg.fits
        cases t5 with
        | send q => exact q
        | old => exact hlt
        | @new i' q1 q2 => exact q2
      · intro k _
        unfold UsedIn
        rw [hrd, hsn]
        constructor
        · rintro ((q | q) | q)
          · exact .inl (.inl q)
          · exact .inr q
          · exact .inl (.inr q)
        · rintro ((q | q) | q)
          · exact .inl (.inl q)
          · exact .inr q
          · exact .inl (.inr q)
      · obtain ⟨seed, v1, v2, v3, v4⟩ := hpair
        refine ⟨seed, v1, ?_, ?_, v4⟩
        · unfold SenderKeyState.getSigningKeyPrivate at v2 ⊢
          rw [t5.signing]; exact v2
        · rw [t5.signing]; exact v3
      · rw [sentUnder_snoc, e1, List.append_nil]; exact h.party.sentOnce
      · rw [readBy_snoc, e3, List.pairwise_append]
        refine ⟨h.party.readOnce, List.pairwise_singleton _ _, ?_⟩
        intro p hp q hq k hk1 hk2
        rw [List.mem_singleton.1 hq] at hk2
        have := hnum.unique hk2
        subst this
        exact hnu (.inl ⟨p, hp, hk1⟩)
      · intro k q1 q2
        rw [hsn] at q2
        rcases (hrd k).1 q1 with q1 | rfl
        · exact h.party.apart k q1 q2
        · exact hnu (.inr q2)
    · have hmem := h.member m hown
      cases hh : heardBy m n (r.own m) with
      | nil =>
        exfalso
        unfold stateFor at p2
        rw [hmem.unheard hh] at p2
        cases p2
      | cons d rest =>
        obtain ⟨hann, s1, hs1, hs2, hbef⟩ := hmem.holds d rest hh
        obtain ⟨hdesc, hk⟩ := h.announced d hann
        have : s = s1 := by
          have hs1' := hs1
          rw [hdesc.id, ← hkid] at hs1'
          exact Option.some.inj (p2.symm.trans hs1')
        subst this
        rw [hs2.pub, hdesc.sig] at p3
        cases p3
        obtain ⟨hg, _⟩ := hyi.arrives hby p1 p4
        have hik : d.iteration ≤ x.iteration := by
          apply Nat.le_of_not_lt
          intro hik
          rw [hmem.early hh hdesc hg hik] at hb
          cases hb
        have hg2 := hg.later_on h.it hdesc hik
        have hnr : ¬ ReadNumber m n (r.own m) x.iteration := by
          intro q
          rw [keeps_again hs1 hs2.toKeeps hg2 q] at hb
          cases hb
        obtain ⟨t1, s2, j2, t2, t3, t4, t5, t6⟩ := keeps_new hC hs1 hs2.toKeeps hg2 hnr
        rw [t1] at hb
        have hpt : pt = y.plaintext := (Except.ok.inj hb).symm
        have hpriv : SenderKeyState.getSigningKeyPrivate s2 = [] := by
          have := hs2.priv
          unfold SenderKeyState.getSigningKeyPrivate at this ⊢
          rw [t5.signing]; exact this
        rw [hxi] at hnr t6
        have hh' : heardBy m n (r.own m ++ [⟨m, .decrypt n b, .ok (.bytes pt)⟩]) = d :: rest := by
          rw [heardBy_snoc, e2, List.append_nil]; exact hh
        refine ⟨hpt, fun q => absurd q hown, fun _ => ⟨?_, ?_, ?_, ?_, ?_, ?_⟩⟩
        · intro t ht
          have t3 : (GroupCall.decrypt n b).next (r.store m) n = (r.store m n).replace j2 s2 := t3
          rw [t3] at ht
          rcases List.mem_or_eq_of_mem_set ht with ht | ht
          · exact hmem.noPriv t ht
          · subst ht; exact hpriv
        · intro q; rw [hh'] at q; cases q
        · rw [sentUnder_snoc, e1, List.append_nil]; exact hmem.quiet
        · intro d1 rest1 q
          rw [hh'] at q
          cases q
          exact ⟨hann, s2, t4, ⟨t6.congr fun k _ => (hrd k).symm, hpriv⟩, hbef.step t5⟩
        · intro p hp
          rw [readBy_snoc, e3] at hp
          rcases List.mem_append.1 hp with hp | hp
          · obtain ⟨k, d1, rest1, q1, q2, q3⟩ := hmem.later p hp
            rw [hh] at q2
            cases q2
            exact ⟨k, d, rest, q1, hh', q3⟩
          · rw [List.mem_singleton.1 hp]
            exact ⟨i, d, rest, hnum, hh', by omega⟩
        · rw [readBy_snoc, e3, List.pairwise_append]
          refine ⟨hmem.readOnce, List.pairwise_singleton _ _, ?_⟩
          intro p hp q hq k hk1 hk2
          rw [List.mem_singleton.1 hq] at hk2
          have := hnum.unique hk2
          subst this
          exact hnr ⟨p, hp, hk1⟩
  refine h.update _ _ hrep ?_ ?_ ?_ key.2.1 key.2.2
  · rw [e1]; exact fun _ q => nomatch q
  · rintro d ⟨e, he, rnd, d1, q, _⟩
    rw [List.mem_singleton.1 he] at q; cases q
  · intro z p hp
    by_cases hz : z = m
    · subst hz
      rw [e3] at hp
      rw [List.mem_singleton.1 hp]
      exact ⟨y, hy, hby, key.1⟩
    · rw [e3' z hz] at hp; cases hp

/-- The owner creates the sender key. -/
theorem BUntold.create (hC : C.Lawful) {owner : SenderKeyName → M} {r : Room M} {n : SenderKeyName} (h : BUntold r n)
    (hsub : ∀ x, ∀ e ∈ r.own x, e ∈ r.log)
    {rnd : GroupSessionBuilder.CreateRand} (hk : rnd.keyId < 2 ^ 32) (hs : rnd.senderKey.length = 32) (hg : rnd.signSeed.length = 32) :
    ∃ d, BRunning owner (r.call (owner n) (.create n rnd)) n d := by
  have hpub : (C.genPub (C.genPriv rnd.signSeed)).length = 32 := hC.genPub_len _ (hC.genPriv_len _ hg)
  obtain ⟨s, d, q1, q2, q3, q4, q5, q6, q7, q8, q9, q10⟩ :=
    C44_create_new (r.store (owner n)) n rnd hk (Nat.le_of_eq hpub) (h.states _)
  have hnext := next_create_new (rnd := rnd) (h.states (owner n)) hk
  have hrep : ((GroupCall.create n rnd).run (r.store (owner n))).result = .ok (.distribution d) := by
    rw [run_create]; unfold GroupCall.mapG; rw [q1]
  have hlog : (r.call (owner n) (.create n rnd)).log = r.log ++ [⟨owner n, .create n rnd, .ok (.distribution d)⟩] := by
    show r.log ++ [_] = _
    rw [hrep]
  have e1 : sentUnder n (r.log ++ [(⟨owner n, .create n rnd, .ok (.distribution d)⟩ : RoomEntry M)]) = [] := by
    rw [sentUnder_snoc, h.sent]; rfl
  have e3 : ∀ x, readBy x n (r.log ++ [(⟨owner n, .create n rnd, .ok (.distribution d)⟩ : RoomEntry M)]) = [] := by
    intro x; rw [readBy_snoc, h.read]; rfl
  have hklen : d.chainKey.length = 32 := by rw [q9]; exact hs
  have hslen : d.signatureKey.length = 32 := by rw [q10]; exact hpub
  have hdist : GroupSessionBuilder.wrapAssert (GroupSessionBuilder.distributionOf { senderKeyStates := [createdState rnd] }) = .ok d := by
    rw [create_new_result (h.states _) hk] at q1
    exact q1
  have hsend : sendingState ({ senderKeyStates := [createdState rnd] } : SenderKeyRecord) = some (createdState rnd) := rfl
  have hps : SenderKeyState.getSigningKeyPublic (createdState rnd) = .ok d.signatureKey := by
    unfold SenderKeyState.getSigningKeyPublic createdState
    simp only [Option.getD_some]
    rw [q10]
    exact decodePoint_serializePoint (by omega)
  have hkeep : Keeps d (fun _ => False) (createdState rnd) := by
    have e1 : iterationOf (createdState rnd) = 0 := rfl
    refine ⟨.fresh (createdState_fresh hk), ⟨by rw [q8]; exact Nat.zero_le _, by rw [q8, q9]; rfl⟩, hps, fun k q => (nomatch q), ?_⟩
    intro i _
    refine ⟨False.elim, fun ⟨q, _⟩ => ?_⟩
    rw [e1] at q
    omega
  have hid : (createdState rnd).senderKeyId.getD 0 = d.id := by rw [q7]; rfl
  have hown : ∀ x, sentUnder n (r.own x) = [] := fun x => nil_of_subset (sentUnder_subset (hsub x)) h.sent
  have hownR : ∀ x, readBy x n (r.own x) = [] := fun x => nil_of_subset (readBy_subset (hsub x)) (h.read x)
  have hownH : ∀ x, heardBy x n (r.own x) = [] := fun x => nil_of_subset (heardBy_subset (hsub x)) (h.heard x)
  have hparse : SenderKeyDistributionMessage.parse d.serialized = .ok d := by
    have hcr := distribution_made hsend hps hdist
    have hck : (chainKeyOf (createdState rnd)).length < 2 ^ 63 := by
      rw [show chainKeyOf (createdState rnd) = rnd.senderKey from rfl, hs]; omega
    obtain ⟨d2, r1, r2, _⟩ := C05_distribution_roundtrip rnd.keyId 0 hk (by omega) _ hck d.signatureKey hslen
    have : d = d2 := Except.ok.inj (hcr.symm.trans r1)
    rw [this]
    exact r2
  refine ⟨d, by rw [q7]; exact hk, q8, hklen, hslen, ?_, ?_, ?_, ?_, ?_, ?_⟩
  · exact ⟨d, _, by rw [hlog]; exact List.mem_append_right _ (List.mem_singleton.2 rfl), rnd, d, rfl, rfl, hparse⟩
  · rw [hlog, e1]; exact fun _ q => nomatch q
  · intro d' q
    rw [hlog] at q
    rcases announced_append.1 q with q | ⟨e, he, rnd', d1, r1, r2, r3⟩
    · exact absurd q (h.announced d')
    · rw [List.mem_singleton.1 he] at r1 r2
      cases r2
      obtain ⟨t1, t2⟩ := owner_announces hC hid hkeep q8 hklen hslen hsend hdist r3
      have := t1.it
      rw [← this] at t1 t2
      exact ⟨t1, t2⟩
  · intro x; rw [hlog, e3]; exact fun _ q => nomatch q
  · show BOwner (if owner n = owner n then _ else _) _ _ _ (if owner n = owner n then r.own (owner n) ++ [_] else _)
    rw [if_pos rfl, if_pos rfl, hrep]
    have u1 : sentUnder n (r.own (owner n) ++ [⟨owner n, .create n rnd, .ok (.distribution d)⟩]) = [] := by
      rw [sentUnder_snoc, hown]; rfl
    have u2 : readBy (owner n) n (r.own (owner n) ++ [⟨owner n, .create n rnd, .ok (.distribution d)⟩]) = [] := by
      rw [readBy_snoc, hownR]; rfl
    refine ⟨⟨createdState rnd, by rw [hnext]; exact hsend, hid, .inl rfl, Nat.two_pow_pos 32, hkeep.congr ?_, rnd.signSeed, hg, rfl, rfl, q10⟩, ?_, ?_, ?_⟩
    · intro i _
      refine ⟨False.elim, ?_⟩
      rintro (⟨p, hp, _⟩ | ⟨p, hp, _⟩)
      · rw [u2] at hp; cases hp
      · rw [u1] at hp; cases hp
    · rw [u1]; exact .nil
    · rw [u2]; exact .nil
    · rintro i ⟨p, hp, _⟩
      rw [u2] at hp; cases hp
  · intro x hx
    show BMember (if x = owner n then _ else r.store x) x n (if x = owner n then r.own (owner n) ++ [_] else r.own x) _
    rw [if_neg hx, if_neg hx]
    have hst := h.states x
    refine ⟨fun t ht => ?_, fun _ => hst, hown x, fun d rest q => ?_, fun p hp => ?_, ?_⟩
    · rw [hst] at ht; cases ht
    · rw [hownH] at q; cases q
    · rw [hownR] at hp; cases hp
    · rw [hownR]; exact .nil

/-! ## Every room that can come about -/

def BState (owner : SenderKeyName → M) (past : List (Room M)) (r : Room M) (n : SenderKeyName) : Prop :=
  (BUntold r n ∧ ∀ r0 ∈ past, BUntold r0 n) ∨ ∃ d0, BRunning owner r n d0 ∧ ∀ r0 ∈ past, BUntold r0 n ∨ BRunning owner r0 n d0

omit C [DecidableEq M] in
theorem run_error_idle {α : Type} {o : GOutcome α} {f : α → GroupReply} {e : Err} (h : o.result = .error e) :
    (GroupCall.mapG f o).result = .error e := by
  unfold GroupCall.mapG; rw [h]

/-- A call keeps the invariant of a name. -/
theorem BState.call (hC : C.Lawful) {owner : SenderKeyName → M} {past : List (Room M)} {r : Room M} {n : SenderKeyName}
    (h : BState owner past r n) (hsub : ∀ x, ∀ e ∈ r.own x, e ∈ r.log) (m : M) (c : GroupCall)
    (hc : BackupAllowed owner r.log m c (c.run (r.store m)).result) : BState owner (r :: past) (r.call m c) n := by
  have hidle : c.next (r.store m) n = r.store m n → NoTrace n (⟨m, c, (c.run (r.store m)).result⟩ : RoomEntry M) →
      BState owner (r :: past) (r.call m c) n := by
    intro h1 h2
    rcases h with ⟨q1, q2⟩ | ⟨d0, q1, q2⟩
    · exact .inl ⟨q1.idle m c h1 h2, fun r0 hr => by
        rcases List.mem_cons.1 hr with rfl | hr
        · exact q1
        · exact q2 r0 hr⟩
    · exact .inr ⟨d0, q1.idle m c h1 h2, fun r0 hr => by
        rcases List.mem_cons.1 hr with rfl | hr
        · exact .inr q1
        · exact q2 r0 hr⟩
  have hrun : ∀ d0, BRunning owner r n d0 → (∀ r0 ∈ past, BUntold r0 n ∨ BRunning owner r0 n d0) →
      BRunning owner (r.call m c) n d0 → BState owner (r :: past) (r.call m c) n := by
    intro d0 q1 q2 q3
    exact .inr ⟨d0, q3, fun r0 hr => by
      rcases List.mem_cons.1 hr with rfl | hr
      · exact .inr q1
      · exact q2 r0 hr⟩
  by_cases hn : c.name = n
  · cases c with
    | encrypt n' pt rand =>
      have hn : n' = n := hn
      subst hn
      cases hr : (GroupCipher.encrypt (r.store m) n' pt rand).result with
      | error e =>
        refine hidle (by rw [next_encrypt_error (GroupCipher.encrypt_error hr)]) ?_
        rw [run_encrypt, run_error_idle hr]
        exact notrace_failed _ _ _ _
      | ok b =>
        rcases h with ⟨q1, _⟩ | ⟨d0, q1, q2⟩
        · obtain ⟨s, _, _, q, _⟩ := GroupCipher.encrypt_ok hr
          rw [sendingState_none.2 (q1.states m)] at q
          cases q
        · exact hrun d0 q1 q2 (q1.encrypt hC m hc.1 hc.2 hr)
    | decrypt n' b =>
      have hn : n' = n := hn
      subst hn
      cases hr : (GroupCipher.decrypt (r.store m) n' b).result with
      | error e =>
        refine hidle (by rw [next_decrypt_error (GroupCipher.decrypt_error hr)]) ?_
        rw [run_decrypt, run_error_idle hr]
        exact notrace_failed _ _ _ _
      | ok pt =>
        have e1 : ((GroupCall.decrypt n' b).run (r.store m)).result = .ok (.bytes pt) := by
          rw [run_decrypt]; unfold GroupCall.mapG; rw [hr]
        have hs := hc _ e1
        rcases h with ⟨q1, _⟩ | ⟨d0, q1, q2⟩
        · obtain ⟨y, q, _⟩ := hs
          rw [q1.sent] at q
          cases q
        · exact hrun d0 q1 q2 (q1.decrypt hC m hs hr)
    | process n' d =>
      have hn : n' = n := hn
      subst hn
      rcases h with ⟨q1, _⟩ | ⟨d0, q1, q2⟩
      · exact absurd hc (q1.announced d)
      · exact hrun d0 q1 q2 (q1.process hC m hc)
    | create n' rnd =>
      have hn : n' = n := hn
      subst hn
      obtain ⟨hm, hc2, hc3⟩ := hc
      subst hm
      rcases h with ⟨q1, q2⟩ | ⟨d0, q1, q2⟩
      · by_cases hk : rnd.keyId < 2 ^ 32
        · obtain ⟨d, q3⟩ := q1.create (owner := owner) hC hsub hk hc2 hc3
          exact .inr ⟨d, q3, fun r0 hr => by
            rcases List.mem_cons.1 hr with rfl | hr
            · exact .inl q1
            · exact .inl (q2 r0 hr)⟩
        · refine hidle ?_ ?_
          · rw [next_create_bad (q1.states _) hk]
          · rw [run_create, run_error_idle (by rw [create_bad (q1.states _) hk])]
            exact notrace_failed _ _ _ _
      · cases hr : (GroupSessionBuilder.create (r.store (owner n')) n' rnd).result with
        | error e =>
          obtain ⟨s, hs, _⟩ := q1.party.state
          have hne : (r.store (owner n') n').senderKeyStates ≠ [] := fun q => by
            rw [sendingState_none.2 q] at hs; cases hs
          refine hidle (by rw [next_create_again hne]) ?_
          rw [run_create, run_error_idle hr]
          exact notrace_failed _ _ _ _
        | ok d => exact hrun d0 q1 q2 (q1.create hC hr)
  · exact hidle (next_other _ _ _ hn) (notrace_other m c _ hn)

/-- A restore keeps the invariant of a name. -/
theorem BState.restore {owner : SenderKeyName → M} {past : List (Room M)} {r : Room M} {n : SenderKeyName}
    (h : BState owner past r n) {m : M} {old : Room M} (hold : old ∈ past) (hsub : ∀ x, ∀ e ∈ old.own x, e ∈ old.log)
    (hlog : ∀ e ∈ old.log, e ∈ r.log)
    (hkey : ∀ n d, owner n = m → Announced n r.log d → ∃ d', Announced n old.log d') :
    BState owner (r :: past) (r.restore m old) n := by
  rcases h with ⟨q1, q2⟩ | ⟨d0, q1, q2⟩
  · refine .inl ⟨⟨?_, q1.sent, q1.heard, q1.read, q1.announced⟩, fun r0 hr => by
      rcases List.mem_cons.1 hr with rfl | hr
      · exact q1
      · exact q2 r0 hr⟩
    intro x
    show ((if x = m then old.store m else r.store x) n).senderKeyStates = []
    split
    · exact (q2 old hold).states m
    · exact q1.states x
  · refine .inr ⟨d0, ⟨q1.id, q1.it, q1.klen, q1.slen, q1.told, q1.sent, q1.announced, q1.reads, ?_, ?_⟩, fun r0 hr => by
      rcases List.mem_cons.1 hr with rfl | hr
      · exact .inr q1
      · exact q2 r0 hr⟩
    · show BOwner (if owner n = m then old.store m else r.store (owner n)) (owner n) n d0
        (if owner n = m then old.own m else r.own (owner n))
      by_cases hm : owner n = m
      · rw [if_pos hm, if_pos hm]
        obtain ⟨d, hd⟩ := q1.told
        obtain ⟨d', hd'⟩ := hkey n d hm hd
        rcases q2 old hold with q3 | q3
        · exact absurd hd' (q3.announced d')
        · rw [← hm]; exact q3.party
      · rw [if_neg hm, if_neg hm]; exact q1.party
    · intro x hx
      show BMember (if x = m then old.store m else r.store x) x n (if x = m then old.own m else r.own x) (Announced n r.log)
      by_cases hm : x = m
      · subst hm
        rw [if_pos rfl, if_pos rfl]
        rcases q2 old hold with q3 | q3
        · have hst := q3.states x
          have h1 : sentUnder n (old.own x) = [] := nil_of_subset (sentUnder_subset (hsub x)) q3.sent
          have h2 : readBy x n (old.own x) = [] := nil_of_subset (readBy_subset (hsub x)) (q3.read x)
          have h3 : heardBy x n (old.own x) = [] := nil_of_subset (heardBy_subset (hsub x)) (q3.heard x)
          refine ⟨fun t ht => ?_, fun _ => hst, h1, fun d rest q => ?_, fun p hp => ?_, ?_⟩
          · rw [hst] at ht; cases ht
          · rw [h3] at q; cases q
          · rw [h2] at hp; cases hp
          · rw [h2]; exact .nil
        · exact (q3.member x hx).mono fun d hd => announced_subset hlog hd
      · rw [if_neg hm, if_neg hm]; exact q1.member x hx

/-- The logs of the members are parts of the log, and the log only grows. -/
structure BLogs (past : List (Room M)) (r : Room M) : Prop where
  own : ∀ x, ∀ e ∈ r.own x, e ∈ r.log
  pastOwn : ∀ r0 ∈ past, ∀ x, ∀ e ∈ r0.own x, e ∈ r0.log
  pastLog : ∀ r0 ∈ past, ∀ e ∈ r0.log, e ∈ r.log

theorem Spec.BackupReach.logs {owner : SenderKeyName → M} {past : List (Room M)} {r : Room M} (h : BackupReach owner past r) :
    BLogs past r := by
  induction h with
  | start => exact ⟨fun x e he => (nomatch he), fun r0 hr => (nomatch hr), fun r0 hr => (nomatch hr)⟩
  | @call past r m c _ _ ih =>
    refine ⟨?_, ?_, ?_⟩
    · intro x e he
      have he : e ∈ (if x = m then r.own m ++ [_] else r.own x) := he
      split at he
      · rcases List.mem_append.1 he with he | he
        · exact List.mem_append_left _ (ih.own m e he)
        · exact List.mem_append_right _ he
      · exact List.mem_append_left _ (ih.own x e he)
    · intro r0 hr
      rcases List.mem_cons.1 hr with rfl | hr
      · exact ih.own
      · exact ih.pastOwn r0 hr
    · intro r0 hr e he
      rcases List.mem_cons.1 hr with rfl | hr
      · exact List.mem_append_left _ he
      · exact List.mem_append_left _ (ih.pastLog r0 hr e he)
  | @restore past r m old _ hold _ ih =>
    refine ⟨?_, ?_, ?_⟩
    · intro x e he
      have he : e ∈ (if x = m then old.own m else r.own x) := he
      split at he
      · exact ih.pastLog old hold e (ih.pastOwn old hold m e he)
      · exact ih.own x e he
    · intro r0 hr
      rcases List.mem_cons.1 hr with rfl | hr
      · exact ih.own
      · exact ih.pastOwn r0 hr
    · intro r0 hr e he
      rcases List.mem_cons.1 hr with rfl | hr
      · exact he
      · exact ih.pastLog r0 hr e he

theorem Spec.BackupReach.state (hC : C.Lawful) {owner : SenderKeyName → M} {past : List (Room M)} {r : Room M}
    (h : BackupReach owner past r) (n : SenderKeyName) : BState owner past r n := by
  induction h with
  | start =>
    refine .inl ⟨⟨fun _ => rfl, rfl, fun _ => rfl, fun _ => rfl, ?_⟩, fun r0 hr => (nomatch hr)⟩
    rintro d ⟨e, he, _⟩
    cases he
  | call m c hr hc ih => exact ih.call hC hr.logs.own m c hc
  | restore m old hr hold hkey ih => exact ih.restore hold (hr.logs.pastOwn old hold) (hr.logs.pastLog old hold) hkey

end
end Axolotl
