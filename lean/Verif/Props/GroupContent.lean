import Verif.Props.Room
import Verif.Props.Content
import Verif.Spec.GroupContent

/-! # C94 for groups as a whole: what is said leaves no trace but in the ciphertexts -/

namespace Axolotl
section
variable [C : Crypto]
open Spec ByteUtil
variable {M : Type} [DecidableEq M]

/-! ## What the relation says about the logs -/

omit C [DecidableEq M] in
theorem wordless_sent {e : RoomEntry M} (h : Wordless e) (n : SenderKeyName) : sentUnder n [e] = [] := by
  obtain ⟨m, c, r⟩ := e
  cases c <;> cases r <;> first | exact h.elim | rfl

omit C in
theorem wordless_read {e : RoomEntry M} (h : Wordless e) (m : M) (n : SenderKeyName) : readBy m n [e] = [] := by
  obtain ⟨m, c, r⟩ := e
  cases c <;> cases r <;> first | exact h.elim | rfl

omit C [DecidableEq M] in
theorem Spec.RoomRetold.count {say : SenderKeyName → Nat → Bytes} {log log' : RoomLog M} (h : RoomRetold say log log')
    (n : SenderKeyName) : (sentUnder n log').length = (sentUnder n log).length := by
  induction h with
  | start => rfl
  | same e _ _ ih => rw [sentUnder_snoc, sentUnder_snoc, List.length_append, List.length_append, ih]
  | sent m n' pt rand b b' _ _ _ ih =>
    rw [sentUnder_snoc, sentUnder_snoc, List.length_append, List.length_append, ih]
    by_cases hn : n' = n
    · subst hn; simp [sentUnder]
    · simp [sentUnder, hn]
  | read m n' i x x' b _ _ _ _ ih =>
    rw [sentUnder_snoc, sentUnder_snoc, List.length_append, List.length_append, ih]
    rfl

omit C in
theorem Spec.RoomRetold.heard {say : SenderKeyName → Nat → Bytes} {log log' : RoomLog M} (h : RoomRetold say log log')
    (m : M) (n : SenderKeyName) : heardBy m n log' = heardBy m n log := by
  induction h with
  | start => rfl
  | same e _ _ ih => rw [heardBy_snoc, heardBy_snoc, ih]
  | sent m' n' pt rand b b' _ _ _ ih => rw [heardBy_snoc, heardBy_snoc, ih]; rfl
  | read m' n' i x x' b _ _ _ _ ih => rw [heardBy_snoc, heardBy_snoc, ih]; rfl

omit C [DecidableEq M] in
theorem Spec.RoomRetold.announced {say : SenderKeyName → Nat → Bytes} {log log' : RoomLog M} (h : RoomRetold say log log')
    (n : SenderKeyName) (k : Nat) (d : SenderKeyDistributionMessage) : AnnouncedAt n log' k d ↔ AnnouncedAt n log k d := by
  induction h with
  | start => exact Iff.rfl
  | same e h _ ih => rw [announced_snoc, announced_snoc, ih, h.count]
  | sent m' n' pt rand b b' _ _ _ ih =>
    rw [announced_snoc, announced_snoc, ih]
    constructor
    · rintro (q | ⟨_, _, q, _⟩)
      · exact .inl q
      · cases q
    · rintro (q | ⟨_, _, q, _⟩)
      · exact .inl q
      · cases q
  | read m' n' i x x' b _ _ _ _ ih =>
    rw [announced_snoc, announced_snoc, ih]
    constructor
    · rintro (q | ⟨_, _, q, _⟩)
      · exact .inl q
      · cases q
    · rintro (q | ⟨_, _, q, _⟩)
      · exact .inl q
      · cases q

omit C [DecidableEq M] in
/-- Message by message: what the second says, and what both have in common. -/
theorem Spec.RoomRetold.message {say : SenderKeyName → Nat → Bytes} {log log' : RoomLog M} (h : RoomRetold say log log')
    (n : SenderKeyName) : ∀ (i : Nat) (x x' : GroupSent), (sentUnder n log)[i]? = some x → (sentUnder n log')[i]? = some x' →
      x'.plaintext = say n i ∧ SameFrame x.bytes x'.bytes ∧
        (x.bytes.length = x'.bytes.length ↔ x.plaintext.length / 16 = x'.plaintext.length / 16) := by
  induction h with
  | start => intro i x x' hx; simp [sentUnder] at hx
  | same e _ hw ih =>
    intro i x x' hx hx'
    rw [sentUnder_snoc, wordless_sent hw, List.append_nil] at hx hx'
    exact ih i x x' hx hx'
  | @sent log log' m n' pt rand b b' hr hf hl ih =>
    intro i x x' hx hx'
    rw [sentUnder_snoc] at hx hx'
    by_cases hn : n' = n
    · subst hn
      have e1 : sentUnder n' [(⟨m, .encrypt n' pt rand, .ok (.bytes b)⟩ : RoomEntry M)] = [⟨n', pt, b⟩] := by simp [sentUnder]
      have e2 : sentUnder n' [(⟨m, .encrypt n' (say n' (sentUnder n' log).length) rand, .ok (.bytes b')⟩ : RoomEntry M)] =
          [⟨n', say n' (sentUnder n' log).length, b'⟩] := by simp [sentUnder]
      rw [e1] at hx
      rw [e2] at hx'
      have hcount := hr.count n'
      rcases Nat.lt_trichotomy i (sentUnder n' log).length with hi | hi | hi
      · rw [List.getElem?_append_left hi] at hx
        rw [List.getElem?_append_left (by omega)] at hx'
        exact ih i x x' hx hx'
      · rw [List.getElem?_append_right (by omega), hi, Nat.sub_self] at hx
        rw [List.getElem?_append_right (by omega), hi, hcount, Nat.sub_self] at hx'
        cases hx
        cases hx'
        exact ⟨by rw [hi], hf, hl⟩
      · rw [List.getElem?_eq_none (by simp; omega)] at hx
        cases hx
    · have e1 : sentUnder n [(⟨m, .encrypt n' pt rand, .ok (.bytes b)⟩ : RoomEntry M)] = [] := by simp [sentUnder, hn]
      have e2 : sentUnder n [(⟨m, .encrypt n' (say n' (sentUnder n' log).length) rand, .ok (.bytes b')⟩ : RoomEntry M)] = [] := by
        simp [sentUnder, hn]
      rw [e1, List.append_nil] at hx
      rw [e2, List.append_nil] at hx'
      exact ih i x x' hx hx'
  | @read log log' m n' j y y' b _ _ _ _ ih =>
    intro i x x' hx hx'
    rw [sentUnder_snoc] at hx hx'
    have e1 : sentUnder n [(⟨m, .decrypt n' b, .ok (.bytes y.plaintext)⟩ : RoomEntry M)] = [] := rfl
    have e2 : sentUnder n [(⟨m, .decrypt n' y'.bytes, .ok (.bytes y'.plaintext)⟩ : RoomEntry M)] = [] := rfl
    rw [e1, List.append_nil] at hx
    rw [e2, List.append_nil] at hx'
    exact ih i x x' hx hx'

omit C [DecidableEq M] in
theorem sent_get_snoc {n : SenderKeyName} {log : RoomLog M} (e : RoomEntry M) {i : Nat} {x : GroupSent}
    (h : (sentUnder n log)[i]? = some x) : (sentUnder n (log ++ [e]))[i]? = some x := by
  obtain ⟨hi, _⟩ := List.getElem?_eq_some_iff.1 h
  rw [sentUnder_snoc, List.getElem?_append_left hi, h]

omit C [DecidableEq M] in
theorem Spec.ReadAlike.snoc {n : SenderKeyName} {log log' : RoomLog M} {p p' : Bytes × Bytes} (h : ReadAlike n log log' p p')
    (e e' : RoomEntry M) : ReadAlike n (log ++ [e]) (log' ++ [e']) p p' := by
  obtain ⟨i, x, x', h1, h2, h3⟩ := h
  exact ⟨i, x, x', sent_get_snoc e h1, sent_get_snoc e' h2, h3⟩

omit C in
/-- What a member has read in the one run and in the other corresponds. -/
theorem Spec.RoomRetold.reads {say : SenderKeyName → Nat → Bytes} {log log' : RoomLog M} (h : RoomRetold say log log')
    (m : M) (n : SenderKeyName) : (readBy m n log').length = (readBy m n log).length ∧
      ∀ (j : Nat) (p p' : Bytes × Bytes), (readBy m n log)[j]? = some p → (readBy m n log')[j]? = some p' → ReadAlike n log log' p p' := by
  induction h with
  | start => exact ⟨rfl, fun j p p' hp => by simp [readBy] at hp⟩
  | same e _ hw ih =>
    rw [readBy_snoc, readBy_snoc, wordless_read hw, List.append_nil, List.append_nil]
    exact ⟨ih.1, fun j p p' q q' => (ih.2 j p p' q q').snoc e e⟩
  | sent m' n' pt rand b b' _ _ _ ih =>
    rw [readBy_snoc, readBy_snoc]
    have e1 : readBy m n [(⟨m', .encrypt n' pt rand, .ok (.bytes b)⟩ : RoomEntry M)] = [] := rfl
    have e2 : ∀ z, readBy m n [(⟨m', .encrypt n' z rand, .ok (.bytes b')⟩ : RoomEntry M)] = [] := fun _ => rfl
    rw [e1, e2, List.append_nil, List.append_nil]
    exact ⟨ih.1, fun j p p' q q' => (ih.2 j p p' q q').snoc _ _⟩
  | @read log log' m' n' i x x' b _ h1 h2 h3 ih =>
    rw [readBy_snoc, readBy_snoc]
    by_cases hmn : m' = m ∧ n' = n
    · obtain ⟨rfl, rfl⟩ := hmn
      have e1 : readBy m' n' [(⟨m', .decrypt n' b, .ok (.bytes x.plaintext)⟩ : RoomEntry M)] = [(b, x.plaintext)] := by simp [readBy]
      have e2 : readBy m' n' [(⟨m', .decrypt n' x'.bytes, .ok (.bytes x'.plaintext)⟩ : RoomEntry M)] =
          [(x'.bytes, x'.plaintext)] := by simp [readBy]
      rw [e1, e2]
      refine ⟨by rw [List.length_append, List.length_append, ih.1]; rfl, fun j p p' q q' => ?_⟩
      rcases Nat.lt_trichotomy j (readBy m' n' log).length with hj | hj | hj
      · rw [List.getElem?_append_left hj] at q
        rw [List.getElem?_append_left (by rw [ih.1]; exact hj)] at q'
        exact (ih.2 j p p' q q').snoc _ _
      · rw [List.getElem?_append_right (by omega), hj, Nat.sub_self] at q
        rw [List.getElem?_append_right (by rw [ih.1]; omega), hj, ih.1, Nat.sub_self] at q'
        cases q
        cases q'
        exact ⟨i, x, x', sent_get_snoc _ h1, sent_get_snoc _ h2, h3, rfl, rfl⟩
      · rw [List.getElem?_eq_none (by simp; omega)] at q
        cases q
    · have e1 : readBy m n [(⟨m', .decrypt n' b, .ok (.bytes x.plaintext)⟩ : RoomEntry M)] = [] := by simp [readBy, hmn]
      have e2 : readBy m n [(⟨m', .decrypt n' x'.bytes, .ok (.bytes x'.plaintext)⟩ : RoomEntry M)] = [] := by simp [readBy, hmn]
      rw [e1, e2, List.append_nil, List.append_nil]
      exact ⟨ih.1, fun j p p' q q' => (ih.2 j p p' q q').snoc _ _⟩

/-! ## One step -/

omit C in
theorem Spec.RoomRetold.read_back {say : SenderKeyName → Nat → Bytes} {log log' : RoomLog M} (h : RoomRetold say log log')
    {m : M} {n : SenderKeyName} {p' : Bytes × Bytes} (hp : p' ∈ readBy m n log') : ∃ p ∈ readBy m n log, ReadAlike n log log' p p' := by
  obtain ⟨j, hj⟩ := List.mem_iff_getElem?.1 hp
  obtain ⟨hlt, _⟩ := List.getElem?_eq_some_iff.1 hj
  rw [(h.reads m n).1] at hlt
  exact ⟨_, List.getElem_mem hlt, (h.reads m n).2 j _ p' (List.getElem?_eq_getElem hlt) hj⟩

omit C in
theorem Spec.RoomRetold.read_on {say : SenderKeyName → Nat → Bytes} {log log' : RoomLog M} (h : RoomRetold say log log')
    {m : M} {n : SenderKeyName} {p : Bytes × Bytes} (hp : p ∈ readBy m n log) : ∃ p' ∈ readBy m n log', ReadAlike n log log' p p' := by
  obtain ⟨j, hj⟩ := List.mem_iff_getElem?.1 hp
  obtain ⟨hlt, _⟩ := List.getElem?_eq_some_iff.1 hj
  rw [← (h.reads m n).1] at hlt
  exact ⟨_, List.getElem_mem hlt, (h.reads m n).2 j p _ hj (List.getElem?_eq_getElem hlt)⟩

/-- The messages of a run have different numbers. -/
theorem Spec.RoomReach.index (hC : C.Lawful) {owner : SenderKeyName → M} {S : M → GroupStore} {log : RoomLog M}
    (h : RoomReach owner S log) {n : SenderKeyName} {i j : Nat} {x y : GroupSent} (hx : (sentUnder n log)[i]? = some x)
    (hy : (sentUnder n log)[j]? = some y) (hxy : SameBody x.bytes y.bytes) : i = j := by
  rcases h.inv hC n with q | ⟨d0, q⟩
  · rw [q.sent] at hx; simp at hx
  · exact q.sent.same hx hy hxy

/-- Read before in the one run, read before in the other. -/
theorem Spec.RoomRetold.read_iff (hC : C.Lawful) {owner : SenderKeyName → M} {S S' : M → GroupStore} {say : SenderKeyName → Nat → Bytes}
    {log log' : RoomLog M} (hr : RoomReach owner S log) (hr' : RoomReach owner S' log') (h : RoomRetold say log log') {m : M}
    {n : SenderKeyName} {i : Nat} {x x' : GroupSent} (hx : (sentUnder n log)[i]? = some x) (hx' : (sentUnder n log')[i]? = some x') :
    (∃ p ∈ readBy m n log, SameBody p.1 x.bytes) ↔ ∃ p ∈ readBy m n log', SameBody p.1 x'.bytes := by
  constructor
  · rintro ⟨p, hp, hpx⟩
    obtain ⟨p', hp', j, y, y', h1, h2, h3, _, h5⟩ := h.read_on hp
    obtain rfl := hr.index hC h1 hx (h3.symm.trans hpx)
    rw [hx'] at h2
    cases h2
    refine ⟨p', hp', ?_⟩
    rw [h5]
    rcases hr'.inv hC n with q | ⟨d0, q⟩
    · rw [q.sent] at hx'; simp at hx'
    · exact sameBody_refl (q.sent _ _ hx').1
  · rintro ⟨p', hp', hpx⟩
    obtain ⟨p, hp, j, y, y', h1, h2, h3, _, h5⟩ := h.read_back hp'
    rw [h5] at hpx
    obtain rfl := hr'.index hC h2 hx' hpx
    rw [hx] at h1
    cases h1
    exact ⟨p, hp, h3⟩

/-- **C94**, groups, the next delivery.  At two such moments the message number `i`, delivered to any member, has the same effect on
the stores; either it is read in each run as what was said in it, or it is refused with the same exception in both. -/
theorem C94_group_deliver (hC : C.Lawful) (owner : SenderKeyName → M) (S : M → GroupStore) (log log' : RoomLog M)
    (hr : RoomReach owner S log) (hr' : RoomReach owner S log') (say : SenderKeyName → Nat → Bytes) (h : RoomRetold say log log')
    (m : M) (n : SenderKeyName) (i : Nat) (x x' : GroupSent) (hx : (sentUnder n log)[i]? = some x)
    (hx' : (sentUnder n log')[i]? = some x') :
    (GroupCipher.decrypt (S m) n x'.bytes).stored = (GroupCipher.decrypt (S m) n x.bytes).stored ∧
    (((GroupCipher.decrypt (S m) n x.bytes).result = .ok x.plaintext ∧ (GroupCipher.decrypt (S m) n x'.bytes).result = .ok x'.plaintext) ∨
      ∃ e, (GroupCipher.decrypt (S m) n x.bytes).result = .error e ∧ (GroupCipher.decrypt (S m) n x'.bytes).result = .error e) := by
  have same : ∀ e, GroupCipher.decrypt (S m) n x.bytes = ⟨none, .error e⟩ → GroupCipher.decrypt (S m) n x'.bytes = ⟨none, .error e⟩ →
      (GroupCipher.decrypt (S m) n x'.bytes).stored = (GroupCipher.decrypt (S m) n x.bytes).stored ∧
      (((GroupCipher.decrypt (S m) n x.bytes).result = .ok x.plaintext ∧
        (GroupCipher.decrypt (S m) n x'.bytes).result = .ok x'.plaintext) ∨
      ∃ e, (GroupCipher.decrypt (S m) n x.bytes).result = .error e ∧ (GroupCipher.decrypt (S m) n x'.bytes).result = .error e) := by
    intro e h1 h2
    rw [h1, h2]
    exact ⟨rfl, .inr ⟨e, rfl, rfl⟩⟩
  have mx := List.mem_iff_getElem?.2 ⟨i, hx⟩
  have mx' := List.mem_iff_getElem?.2 ⟨i, hx'⟩
  by_cases hm : m = owner n
  · subst hm
    exact same _ (C72_owner hC owner S log hr n x mx) (C72_owner hC owner S log' hr' n x' mx')
  · have hh := h.heard m n
    cases hd : heardBy m n log with
    | nil =>
      exact same _ (C72_unheard hC owner S log hr n m hm hd _) (C72_unheard hC owner S log' hr' n m hm (hh.trans hd) _)
    | cons d rest =>
      have hd' := hh.trans hd
      obtain ⟨k, hk, _⟩ := C72_heard hC owner S log hr n m hm d rest hd
      have hk' := (h.announced n k d).2 hk
      by_cases hi : i < k
      · exact same _ (C72_before hC owner S log hr n m hm d rest hd k hk i x hx hi)
          (C72_before hC owner S log' hr' n m hm d rest hd' k hk' i x' hx' hi)
      · by_cases hread : ∃ p ∈ readBy m n log, SameBody p.1 x.bytes
        · obtain ⟨p', hp', hpx'⟩ := (h.read_iff hC hr hr' hx hx').1 hread
          obtain ⟨p, hp, hpx⟩ := hread
          exact same _ (C72_again hC owner S log hr n m p hp x mx hpx) (C72_again hC owner S log' hr' n m p' hp' x' mx' hpx')
        · have r1 := C72_read hC owner S log hr n m hm d rest hd k hk i x hx (by omega) (fun p hp q => hread ⟨p, hp, q⟩)
          have r2 := C72_read hC owner S log' hr' n m hm d rest hd' k hk' i x' hx' (by omega)
            (fun p hp q => hread ((h.read_iff hC hr hr' hx hx').2 ⟨p, hp, q⟩))
          obtain ⟨_, ⟨id, it, _, _, _, _, _, _, _, _, ⟨y, p1, p2, p3⟩, ⟨y', q1, q2, q3⟩⟩, _⟩ := h.message n i x x' hx hx'
          exact ⟨C94_group_decrypt (S m) n x.bytes x'.bytes _ _ y y' p1 q1 (by rw [p2, q2]) (by rw [p3, q3]) r1 r2, .inl ⟨r1, r2⟩⟩

theorem run_bytes {g : GroupStore} {n : SenderKeyName} {b : Bytes} {r : GroupReply}
    (h : ((GroupCall.decrypt n b).run g).result = .ok r) : ∃ pt, r = .bytes pt ∧ (GroupCipher.decrypt g n b).result = .ok pt := by
  unfold GroupCall.run GroupCall.mapG at h
  cases hx : (GroupCipher.decrypt g n b).result with
  | error e => simp only [hx] at h; cases h
  | ok pt => simp only [hx] at h; cases h; exact ⟨pt, rfl, rfl⟩

theorem run_sends {g : GroupStore} {n : SenderKeyName} {pt rand : Bytes} {r : GroupReply}
    (h : ((GroupCall.encrypt n pt rand).run g).result = .ok r) : ∃ b, r = .bytes b ∧ (GroupCipher.encrypt g n pt rand).result = .ok b := by
  unfold GroupCall.run GroupCall.mapG at h
  cases hx : (GroupCipher.encrypt g n pt rand).result with
  | error e => simp only [hx] at h; cases h
  | ok b => simp only [hx] at h; cases h; exact ⟨b, rfl, rfl⟩

/-- **C94**, groups as a whole.  For every run of any number of members, groups and messages, and any other plaintexts, the run with
the same calls, the same randomness and these plaintexts instead is possible too, and at its end the stores of all members are the
very same. -/
theorem C94_group_retold (hC : C.Lawful) (owner : SenderKeyName → M) (S : M → GroupStore) (log : RoomLog M)
    (h : RoomReach owner S log) (say : SenderKeyName → Nat → Bytes) (hsay : ∀ n i, (say n i).length < 2 ^ 62) :
    ∃ log', RoomReach owner S log' ∧ RoomRetold say log log' := by
  induction h with
  | start => exact ⟨[], .start, .start⟩
  | @call S log m c hr hc ih =>
    obtain ⟨log', hr', ht⟩ := ih
    have quiet : Wordless (⟨m, c, (c.run (S m)).result⟩ : RoomEntry M) → RoomAllowed owner log' m c (c.run (S m)).result →
        ∃ log'', RoomReach owner (fun x => if x = m then c.next (S m) else S x) log'' ∧
          RoomRetold say (log ++ [⟨m, c, (c.run (S m)).result⟩]) log'' :=
      fun hw ha => ⟨_, .call m c hr' ha, .same _ ht hw⟩
    cases c with
    | create n rnd => exact quiet trivial hc
    | process n d =>
      obtain ⟨k, hk⟩ := hc
      exact quiet trivial ⟨k, (ht.announced n k d).2 hk⟩
    | encrypt n pt rand =>
      cases hres : ((GroupCall.encrypt n pt rand).run (S m)).result with
      | error e =>
        rw [hres] at quiet
        exact quiet trivial hc
      | ok r =>
        obtain ⟨b, rfl, hb⟩ := run_sends hres
        obtain ⟨hpt, hrand⟩ := hc
        have hm : m = owner n := Decidable.byContradiction fun hm => C72_only_owner hC owner S log hr n m hm pt rand b hpt hrand hb
        obtain ⟨d0, q⟩ : ∃ d0, RoomRunning owner S log n d0 := by
          rcases hr.inv hC n with q | q
          · obtain ⟨s, _, _, r, _⟩ := GroupCipher.encrypt_ok hb
            rw [sendingState_none.2 (q.states m)] at r
            cases r
          · exact q
        obtain ⟨s, hs, ho⟩ := q.own
        obtain ⟨seed, hseed, hp, _⟩ := ho.pair
        have hgen : ∀ s', sendingState (S m n) = some s' → C.Generated ((s'.senderSigningKey.getD {}).priv.getD []) := by
          intro s' hs'
          rw [hm, hs] at hs'
          cases hs'
          have hp : (s.senderSigningKey.getD {}).priv.getD [] = C.genPriv seed := hp
          rw [hp]
          exact ⟨hC.genPriv_len _ hseed, seed, rfl⟩
        obtain ⟨hst, ⟨e, he, _⟩ | ⟨b1, b', y, y', h1, h2, ⟨ct, ct', sig, sig', f1, f2, f3, f4⟩, h3, h4, h5, h6, h7⟩⟩ :=
          C94_group_encrypt hC (S m) n pt (say n (sentUnder n log).length) rand rand hpt (hsay _ _) hrand hrand hgen
        · rw [hb] at he; cases he
        · rw [hb] at h1
          cases h1
          have hrun : ((GroupCall.encrypt n (say n (sentUnder n log).length) rand).run (S m)).result = .ok (.bytes b') := by
            unfold GroupCall.run GroupCall.mapG
            simp only [h2]
          have hreach := RoomReach.call m (.encrypt n (say n (sentUnder n log).length) rand) hr' ⟨hsay _ _, hrand⟩
          rw [hrun] at hreach
          have hnext : (GroupCall.encrypt n (say n (sentUnder n log).length) rand).next (S m) = (GroupCall.encrypt n pt rand).next (S m) := by
            unfold GroupCall.next GOutcome.final GroupCall.run GroupCall.mapG
            rw [hst]
            rfl
          rw [hnext] at hreach
          exact ⟨_, hreach, .sent m n pt rand b b' ht
            ⟨y.keyId, y.iteration, ct, ct', sig, sig', f1, f2, f3, f4, ⟨y, h3, rfl, rfl⟩, ⟨y', h4, h5, h6⟩⟩ h7⟩
    | decrypt n b =>
      cases hres : ((GroupCall.decrypt n b).run (S m)).result with
      | error e =>
        rw [hres] at quiet
        exact quiet trivial (fun x hx => by cases hx)
      | ok r =>
        have hreach1 := RoomReach.call m (.decrypt n b) hr hc
        rw [hres] at hreach1
        obtain ⟨pt, rfl, hb⟩ := run_bytes hres
        have e1 : readBy m n [(⟨m, .decrypt n b, .ok (.bytes pt)⟩ : RoomEntry M)] = [(b, pt)] := by simp [readBy]
        have e2 : sentUnder n [(⟨m, .decrypt n b, .ok (.bytes pt)⟩ : RoomEntry M)] = [] := rfl
        have e3 : heardBy m n [(⟨m, .decrypt n b, .ok (.bytes pt)⟩ : RoomEntry M)] = [] := rfl
        obtain ⟨hm, i, k, x, d, rest, g1, g2, g3, g4, g5, g6⟩ := C72_genuine hC owner _ _ hreach1 n m (b, pt)
          (by rw [readBy_snoc, e1]; simp)
        rw [sentUnder_snoc, e2, List.append_nil] at g1
        rw [heardBy_snoc, e3, List.append_nil] at g4
        have g5 : AnnouncedAt n log k d := by
          rcases (announced_snoc n log _ k d).1 g5 with g | ⟨_, _, g, _⟩
          · exact g
          · cases g
        have hnew : ∀ p ∈ readBy m n log, ¬ SameBody p.1 x.bytes := by
          intro p hp hpx
          have honce := C72_once hC owner _ _ hreach1 n m
          rw [readBy_snoc, e1] at honce
          exact (List.pairwise_append.1 honce).2.2 p hp (b, pt) (List.mem_singleton.2 rfl) (hpx.trans g2.symm)
        obtain ⟨x', hx'⟩ : ∃ x', (sentUnder n log')[i]? = some x' := by
          obtain ⟨hi, _⟩ := List.getElem?_eq_some_iff.1 g1
          rw [← ht.count n] at hi
          exact ⟨_, List.getElem?_eq_getElem hi⟩
        have r1 := C72_read hC owner S log hr n m hm d rest g4 k g5 i x g1 g6 hnew
        have hpt : pt = x.plaintext := g3
        obtain ⟨hst, ⟨_, r2⟩ | ⟨e, r2, _⟩⟩ := C94_group_deliver hC owner S log log' hr hr' say ht m n i x x' g1 hx'
        · have hst1 : (GroupCipher.decrypt (S m) n x.bytes).stored = (GroupCipher.decrypt (S m) n b).stored := by
            obtain ⟨y, _, _, _, _, _, py, _⟩ := GroupCipher.decrypt_ok hb
            obtain ⟨y', _, _, _, _, _, py', _⟩ := GroupCipher.decrypt_ok r1
            have hl : 64 < b.length := by
              rcases hr.inv hC n with q | ⟨d0, q⟩
              · rw [q.sent] at g1; simp at g1
              · have := (q.sent i x g1).1
                have := g2.length
                simp only at this
                omega
            obtain ⟨s1, s2, _⟩ := g2.parse hl py py'
            exact C94_group_decrypt (S m) n b x.bytes _ _ y y' py py' s1 s2 hb r1
          have hrun : ((GroupCall.decrypt n x'.bytes).run (S m)).result = .ok (.bytes x'.plaintext) := by
            unfold GroupCall.run GroupCall.mapG
            simp only [r2]
          have hreach := RoomReach.call m (.decrypt n x'.bytes) hr' (by
            intro z _
            rcases hr'.inv hC n with q | ⟨d0, q⟩
            · rw [q.sent] at hx'; simp at hx'
            · exact ⟨x', List.mem_iff_getElem?.2 ⟨i, hx'⟩, sameBody_refl (q.sent i x' hx').1⟩)
          rw [hrun] at hreach
          have hnext : (GroupCall.decrypt n x'.bytes).next (S m) = (GroupCall.decrypt n b).next (S m) := by
            unfold GroupCall.next GOutcome.final GroupCall.run GroupCall.mapG
            rw [hst, hst1]
            rfl
          rw [hnext] at hreach
          rw [hpt]
          exact ⟨_, hreach, .read m n i x x' b ht g1 hx' g2⟩
        · rw [r1] at r2; cases r2

omit C in
/-- **C94**, groups as a whole: what the relation of the two runs comes to.  The same members have processed the same announcements;
as many messages have been sent under each name, which say what they should and have the same frames and, for as many blocks, the same
length; and the members have read the messages of the same numbers, in the same order, each run its own. -/
theorem C94_group_same (say : SenderKeyName → Nat → Bytes) (log log' : RoomLog M) (h : RoomRetold say log log') (n : SenderKeyName) :
    (sentUnder n log').length = (sentUnder n log).length ∧
    (∀ (i : Nat) (x x' : GroupSent), (sentUnder n log)[i]? = some x → (sentUnder n log')[i]? = some x' →
      x'.plaintext = say n i ∧ SameFrame x.bytes x'.bytes ∧
        (x.bytes.length = x'.bytes.length ↔ x.plaintext.length / 16 = x'.plaintext.length / 16)) ∧
    (∀ k d, AnnouncedAt n log' k d ↔ AnnouncedAt n log k d) ∧ ∀ m, heardBy m n log' = heardBy m n log ∧
      (readBy m n log').length = (readBy m n log).length ∧
      ∀ (j : Nat) (p p' : Bytes × Bytes), (readBy m n log)[j]? = some p → (readBy m n log')[j]? = some p' → ReadAlike n log log' p p' :=
  ⟨h.count n, h.message n, h.announced n, fun m => ⟨h.heard m n, h.reads m n⟩⟩

end

/-! ## Example -/

section
attribute [local instance] toy
open Example Spec

/-- The run of `roomCalls` with other words: there is one with the same stores, in which the three messages say `[9]`, `[9]`, `[9]`
and member 1 has read the second. -/
example : ∃ log', RoomReach roomOwner (roomRun roomCalls).1 log' ∧ RoomRetold (fun _ _ => [9]) (roomRun roomCalls).2 log' ∧
    (sentUnder grp log').map (·.plaintext) = [[9], [9], [9]] ∧ (readBy 1 grp log').map (·.2) = [[9]] := by
  obtain ⟨log', h1, h2⟩ := C94_group_retold toy_lawful roomOwner _ _ room_reach (fun _ _ => [9]) (fun _ _ => by decide)
  obtain ⟨g1, g2, _, g4⟩ := C94_group_same _ _ _ h2 grp
  obtain ⟨_, g5, g6⟩ := g4 1
  have hs : (sentUnder grp (roomRun roomCalls).2).length = 3 := by decide +kernel
  have hr : readBy 1 grp (roomRun roomCalls).2 = [(grpMsg 1, [2, 2])] := by decide +kernel
  rw [hs] at g1
  rw [hr] at g5
  refine ⟨log', h1, h2, ?_, ?_⟩
  · apply List.ext_getElem?
    intro i
    rw [List.getElem?_map]
    by_cases hi : i < 3
    · have hi1 : i < (sentUnder grp log').length := by omega
      have hi2 : i < (sentUnder grp (roomRun roomCalls).2).length := by omega
      have := (g2 i _ _ (List.getElem?_eq_getElem hi2) (List.getElem?_eq_getElem hi1)).1
      rw [List.getElem?_eq_getElem hi1, Option.map_some, this]
      rcases (by omega : i = 0 ∨ i = 1 ∨ i = 2) with rfl | rfl | rfl <;> rfl
    · rw [List.getElem?_eq_none (by omega), List.getElem?_eq_none (by simp; omega)]
      rfl
  · cases hl : readBy 1 grp log' with
    | nil => rw [hl] at g5; cases g5
    | cons p' rest =>
      rw [hl] at g5
      have hrest : rest = [] := List.eq_nil_of_length_eq_zero (by simpa using g5)
      obtain ⟨i, x, x', k1, k2, k3, k4, k5⟩ := g6 0 _ p' (by rw [hr]; rfl) (by rw [hl]; rfl)
      rw [hrest, k5, List.map_cons, List.map_nil, (g2 i x x' k1 k2).1]

end
end Axolotl
