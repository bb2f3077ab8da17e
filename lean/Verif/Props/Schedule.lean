import Verif.Spec.Schedule
import Verif.Props.Conversation
import Verif.Props.Session

/-! # C20: messages of one chain in any order -/

namespace Axolotl
section
variable [C : Crypto]
open SessionState SessionBuilder Spec

omit C in
theorem seenKeys_start {start : List ECPub} {k : ECPub} (h : k ∈ start) :
    ∀ log : List (ECPub × Nat), k ∈ seenKeys start log := by
  intro log
  unfold seenKeys
  induction log generalizing start with
  | nil => exact h
  | cons x log ih =>
    apply ih
    show k ∈ if x.1 ∈ start then start else start ++ [x.1]
    split
    · exact h
    · exact List.mem_append_left _ h

omit C in
theorem seenKeys_mem {start : List ECPub} {log : List (ECPub × Nat)} {h : ECPub × Nat} (hm : h ∈ log) :
    h.1 ∈ seenKeys start log := by
  induction log generalizing start with
  | nil => cases hm
  | cons x log ih =>
    rcases List.mem_cons.1 hm with rfl | hm
    · apply seenKeys_start (start := if h.1 ∈ start then start else start ++ [h.1])
      split
      · assumption
      · simp
    · exact ih hm

omit C in
theorem seenKeys_snoc (start : List ECPub) (log : List (ECPub × Nat)) (h : ECPub × Nat) :
    seenKeys start (log ++ [h]) =
      if h.1 ∈ seenKeys start log then seenKeys start log else seenKeys start log ++ [h.1] := by
  unfold seenKeys
  rw [List.foldl_append]
  rfl

omit C in
theorem nextCounter_snoc (log : List (ECPub × Nat)) (h : ECPub × Nat) :
    nextCounter (log ++ [h]) h.1 = max (nextCounter log h.1) (h.2 + 1) := by
  unfold nextCounter
  rw [List.foldl_append]
  simp

omit C in
theorem retained_last (l : List ECPub) (k : ECPub) : retained (l ++ [k]) k := by
  unfold retained
  rw [List.length_append, List.length_singleton, List.drop_append, List.mem_append]
  right
  have : l.length + 1 - 5 - l.length = 0 := by omega
  rw [this]
  simp

theorem accepted_sent {cv : Conv} {n0 n : Net} (h0 : Start cv n0) (h : Steps cv n0 n) (b : Bool) :
    ∀ i ∈ n.accepted b, i < (n.sent (!b)).length := by
  induction h with
  | refl =>
    intro i hi
    cases h0 <;> cases hi
  | step _ hs ih =>
    cases hs with
    | @send b' pt c h1 h2 h3 =>
      intro i hi
      have := ih i hi
      simp only [upd]
      split
      · rename_i e; rw [List.length_append, ← e]; omega
      · exact this
    | @deliver b' j c pt seed seeds h1 h2 h3 h4 h5 =>
      intro i hi
      simp only [upd] at hi
      split at hi
      · rename_i e
        subst e
        split at hi
        · exact ih i hi
        · rcases List.mem_append.1 hi with hi | hi
          · exact ih i hi
          · rw [List.mem_singleton.1 hi]
            exact (List.getElem?_eq_some_iff.1 h1).1
      · exact ih i hi
    | other _ _ _ => exact ih

omit C in
theorem log_mem {n : Net} {b : Bool} {i : Nat} {c : Ciphertext} {pt : Bytes} (hi : i ∈ n.accepted b)
    (hs : (n.sent (!b))[i]? = some (c, pt)) : header c ∈ n.log b := by
  unfold Net.log
  rw [List.mem_filterMap]
  exact ⟨i, hi, by rw [hs]; rfl⟩

/-- **C20**, receiver.  At any point of a conversation, take messages of one ratchet key and any schedule of
deliveries of them, with repetitions.  If their chain has not been dropped and no first delivery jumps by more
than 2000, each is decrypted to its plaintext the first time and answered with `DuplicateMessage` afterwards. -/
theorem C20_any_order (hC : C.Lawful) {cv : Conv} {n0 n : Net} (h0 : Start cv n0) (h : Steps cv n0 n) (b : Bool)
    (k : ECPub) (msg : Nat → Ciphertext) (plaintext : Nat → Bytes) (ds : List Delivery)
    (hsent : ∀ d ∈ ds, (n.sent (!b))[d.index]? = some (msg d.index, plaintext d.index) ∧ (header (msg d.index)).1 = k)
    (hkept : k ∈ seenKeys (cv.start b) (n.log b) → retained (seenKeys (cv.start b) (n.log b)) k)
    (hjump : NoJump (fun i => (header (msg i)).2) (nextCounter (n.log b) k) (n.accepted b) (ds.map (·.index)))
    (hseed : ∀ d ∈ ds, d.seed.length = 32 ∧ C.genPub (C.genPriv d.seed) ∉ n.keys)
    (hdist : (ds.map fun d => C.genPub (C.genPriv d.seed)).Nodup) :
    deliverAll (cv.addr b) msg (n.world b) ds = verdicts plaintext (n.accepted b) (ds.map (·.index)) := by
  induction ds generalizing n with
  | nil => rfl
  | cons d ds ih =>
    obtain ⟨hs, hk⟩ := hsent d (List.mem_cons_self ..)
    obtain ⟨hl, hf⟩ := hseed d (List.mem_cons_self ..)
    rw [List.map_cons] at hdist
    obtain ⟨hd1, hd2⟩ := List.nodup_cons.1 hdist
    have hlim : d.index ∉ n.accepted b → n.inLimits cv b (header (msg d.index)) := by
      intro hn
      refine ⟨by rw [hk]; exact hkept, ?_⟩
      rcases hjump with ⟨hy, _⟩ | ⟨_, hle, _⟩
      · exact absurd hy hn
      · rw [hk]; exact hle
    have hrem : d.index ∈ n.accepted b → n.remembered cv b (header (msg d.index)) := by
      intro hy
      unfold Net.remembered
      rw [hk]
      apply hkept
      rw [← hk]
      exact seenKeys_mem (log_mem hy hs)
    have hstep := Step.deliver (cv := cv) (seeds := d.seeds) hs hlim hrem hl hf
    obtain ⟨_, r1, r2⟩ := conv_deliver hC (steps_inv hC h (start_inv hC h0)) d.seeds hs hlim hrem hl hf
    have hrest := ih (h.step hstep) (fun d' hd' => hsent d' (List.mem_cons_of_mem _ hd'))
    have hkeys : ∀ d' ∈ ds, d'.seed.length = 32 ∧
        C.genPub (C.genPriv d'.seed) ∉ C.genPub (C.genPriv d.seed) :: n.keys := by
      intro d' hd'
      obtain ⟨q1, q2⟩ := hseed d' (List.mem_cons_of_mem _ hd')
      refine ⟨q1, ?_⟩
      rw [List.mem_cons, not_or]
      refine ⟨?_, q2⟩
      intro e
      exact hd1 (by rw [← e]; exact List.mem_map.2 ⟨d', hd', rfl⟩)
    show (Spec.receive _ _ _ _ _ _).result :: deliverAll _ _ _ _ = verdicts _ _ (d.index :: _)
    unfold verdicts
    by_cases hin : d.index ∈ n.accepted b
    · have hjump' : NoJump (fun i => (header (msg i)).2) (nextCounter (n.log b) k) (n.accepted b) (ds.map (·.index)) := by
        rcases hjump with ⟨_, hj⟩ | ⟨hn, _⟩
        · exact hj
        · exact absurd hin hn
      simp only [if_pos hin] at hrest
      have hupd : upd n.accepted b (n.accepted b) = n.accepted := by
        funext x; simp only [upd]; split
        · rename_i e; rw [e]
        · rfl
      rw [hupd, upd_same] at hrest
      rw [if_pos hin, (r2 hin).1, hrest hkept hjump' hkeys hd2]
    · have hjump' : NoJump (fun i => (header (msg i)).2) (max (nextCounter (n.log b) k) ((header (msg d.index)).2 + 1))
          (n.accepted b ++ [d.index]) (ds.map (·.index)) := by
        rcases hjump with ⟨hy, _⟩ | ⟨_, _, hj⟩
        · exact absurd hy hin
        · exact hj
      simp only [if_neg hin] at hrest
      rw [upd_same] at hrest
      have hl2 : (Net.log { n with
          world := upd n.world b
            ((Spec.receive (n.world b) (cv.addr b) (msg d.index).getType (msg d.index).serialize d.seed d.seeds).final
              (n.world b)),
          accepted := upd n.accepted b (n.accepted b ++ [d.index]),
          keys := C.genPub (C.genPriv d.seed) :: n.keys } b) = n.log b ++ [header (msg d.index)] := by
        unfold Net.log
        simp only [upd_same]
        rw [List.filterMap_append]
        simp [hs]
      rw [hl2] at hrest
      simp only [upd_same] at hrest
      rw [if_neg hin, r1 hin, hrest ?_ ?_ hkeys hd2]
      · rw [seenKeys_snoc, hk]
        split
        · exact hkept
        · intro _; exact retained_last _ _
      · rw [← hk, nextCounter_snoc]
        rw [← hk] at hjump'
        exact hjump'

theorem Spec.Steps.trans {cv : Conv} {a b c : Net} (h1 : Steps cv a b) (h2 : Steps cv b c) : Steps cv a c := by
  induction h2 with
  | refl => exact h1
  | step _ hs ih => exact ih.step hs

/-- **C20**, sender.  Encrypting any plaintexts in a row, at any point of a conversation, gives messages of one
ratchet key with consecutive counters, and the conversation goes on. -/
theorem C20_one_chain_sent {cv : Conv} {n : Net} (b : Bool)
    (hb : cv.waits = true → b = false → n.accepted false ≠ []) (pts : List Bytes) (hpt : ∀ pt ∈ pts, pt.length < 2 ^ 62)
    (cs : List Ciphertext) (w' : World) (he : encryptAll (n.world b) (cv.addr b) pts = some (cs, w')) :
    cs.length = pts.length ∧
    (∃ k first, ∀ i c, cs[i]? = some c → header c = (k, first + i)) ∧
    Steps cv n { n with world := upd n.world b w', sent := upd n.sent b (n.sent b ++ cs.zip pts) } := by
  induction pts generalizing n cs with
  | nil =>
    obtain ⟨rfl, rfl⟩ := Prod.mk.inj (Option.some.inj he)
    refine ⟨rfl, ⟨[], 0, by intro i c h; cases h⟩, ?_⟩
    have e1 : upd n.world b (n.world b) = n.world := by
      funext x; simp only [upd]; split
      · rename_i e; rw [e]
      · rfl
    have e2 : upd n.sent b (n.sent b ++ []) = n.sent := by
      funext x; simp only [upd, List.append_nil]; split
      · rename_i e; rw [e]
      · rfl
    simp only [List.zip_nil_right, e1, e2]
    exact .refl
  | cons pt pts ih =>
    unfold encryptAll at he
    split at he
    rotate_left
    · cases he
    rename_i c hc
    split at he
    rotate_left
    · cases he
    rename_i cs1 w1 he1
    obtain ⟨rfl, rfl⟩ := Prod.mk.inj (Option.some.inj he)
    have hstep := Step.send (cv := cv) (n := n) (b := b) hb (hpt pt (List.mem_cons_self ..)) hc
    obtain ⟨r', q1, q2, q3, q4, _, q6, _⟩ := C16_encrypt _ _ _ _ hc
    have hfin : ((SessionCipher.encrypt (n.world b) (cv.addr b) pt).final (n.world b)).loadSession (cv.addr b) =
        { r' with fresh := false } := by
      unfold Outcome.final World.loadSession
      rw [q1]
      simp [World.applyAll, World.apply, upd]
    have hrest := ih (n := { n with
        world := upd n.world b ((SessionCipher.encrypt (n.world b) (cv.addr b) pt).final (n.world b)),
        sent := upd n.sent b (n.sent b ++ [(c, pt)]) }) hb (fun p hp => hpt p (List.mem_cons_of_mem _ hp)) cs1
        (by simp only [upd_same]; exact he1)
    obtain ⟨g1, ⟨k, first, g2⟩, g3⟩ := hrest
    refine ⟨by rw [List.length_cons, List.length_cons, g1], ?_, ?_⟩
    · refine ⟨c.inner.senderRatchetKey, c.inner.counter, ?_⟩
      intro i c' hi
      cases i with
      | zero => obtain rfl := Option.some.inj hi; rfl
      | succ i =>
        rw [List.getElem?_cons_succ] at hi
        cases cs1 with
        | nil => cases hi
        | cons c1 cs2 =>
          have g0 := g2 0 c1 rfl
          rw [g2 i c' hi]
          -- the second message continues the first one's chain
          cases pts with
          | nil => cases he1
          | cons pt2 pts =>
            unfold encryptAll at he1
            split at he1
            rotate_left
            · cases he1
            rename_i c2 hc2
            split at he1
            rotate_left
            · cases he1
            obtain ⟨e, _⟩ := Prod.mk.inj (Option.some.inj he1)
            injection e with e _
            subst e
            obtain ⟨_, _, p2, p3, _⟩ := C16_encrypt _ _ _ _ hc2
            rw [hfin] at p2 p3
            unfold header at g0
            injection g0 with g01 g02
            have hkey : r'.sessionState.senderChain.map (fun c => { c with chainKey := none }) =
                ((n.world b).loadSession (cv.addr b)).sessionState.senderChain.map
                  (fun c => { c with chainKey := none }) := by
              have := congrArg SessionS.senderChain q6
              exact this
            have hkey2 : (r'.sessionState.senderChain.getD {}).senderRatchetKey =
                (((n.world b).loadSession (cv.addr b)).sessionState.senderChain.getD {}).senderRatchetKey := by
              cases h1 : r'.sessionState.senderChain <;>
                cases h2 : ((n.world b).loadSession (cv.addr b)).sessionState.senderChain <;> rw [h1, h2] at hkey <;> simp at hkey ⊢
              exact hkey.1
            rw [hkey2] at p3
            rw [q3] at p3
            have e1 := Except.ok.inj p3
            rw [← g01, ← e1]
            have : first = c2.inner.counter := by omega
            rw [this, p2, q2]
            show (_, Spec.sendCounter r'.sessionState + i) = _
            rw [q4]
            congr 1
            omega
    · have hu : ∀ {β : Type} (f : Bool → β) (x y : β), upd (upd f b x) b y = upd f b y := by
        intro β f x y; funext z; simp only [upd]; split <;> rfl
      simp only [hu, upd_same, List.append_assoc, List.singleton_append] at g3
      simp only [List.zip_cons_cons]
      exact Steps.trans (Steps.refl.step hstep) g3

def Spec.Delivery.shift (l : Nat) (d : Delivery) : Delivery := { d with index := d.index + l }

theorem Spec.deliverAll_shift (a : Address) (msg : Nat → Ciphertext) (l : Nat) (ds : List Delivery) :
    ∀ w, deliverAll a (fun i => msg (i - l)) w (ds.map (·.shift l)) = deliverAll a msg w ds := by
  induction ds with
  | nil => intro w; rfl
  | cons d ds ih =>
    intro w
    simp only [List.map_cons, deliverAll]
    rw [ih]
    simp only [Delivery.shift, Nat.add_sub_cancel]

omit C in
theorem mem_shift {old : List Nat} {l : Nat} (hold : ∀ i ∈ old, i < l) {done : List Nat} {i : Nat} :
    i + l ∈ old ++ done.map (· + l) ↔ i ∈ done := by
  rw [List.mem_append, List.mem_map]
  constructor
  · rintro (h | ⟨j, h, e⟩)
    · have := hold _ h; omega
    · obtain rfl : j = i := by omega
      exact h
  · intro h; exact Or.inr ⟨i, h, rfl⟩

omit C in
theorem verdicts_shift (plaintext : Nat → Bytes) {old : List Nat} {l : Nat} (hold : ∀ i ∈ old, i < l) (is : List Nat) :
    ∀ done, verdicts (fun i => plaintext (i - l)) (old ++ done.map (· + l)) (is.map (· + l)) =
      verdicts plaintext done is := by
  induction is with
  | nil => intro done; rfl
  | cons i is ih =>
    intro done
    simp only [List.map_cons, verdicts, mem_shift hold]
    by_cases h : i ∈ done
    · rw [if_pos h, if_pos h, ih]
    · rw [if_neg h, if_neg h, List.append_assoc]
      have := ih (done ++ [i])
      rw [List.map_append, List.map_singleton] at this
      rw [this, Nat.add_sub_cancel]

omit C in
theorem noJump_shift (counter : Nat → Nat) {old : List Nat} {l : Nat} (hold : ∀ i ∈ old, i < l) (is : List Nat) :
    ∀ next done, NoJump counter next done is →
      NoJump (fun i => counter (i - l)) next (old ++ done.map (· + l)) (is.map (· + l)) := by
  induction is with
  | nil => intro _ _ _; trivial
  | cons i is ih =>
    intro next done h
    simp only [List.map_cons, NoJump, mem_shift hold, Nat.add_sub_cancel]
    rcases h with ⟨h1, h2⟩ | ⟨h1, h2, h3⟩
    · exact Or.inl ⟨h1, ih _ _ h2⟩
    · refine Or.inr ⟨h1, h2, ?_⟩
      have := ih _ _ h3
      rw [List.map_append, List.map_singleton, ← List.append_assoc] at this
      exact this

omit C in
theorem noJump_congr {f g : Nat → Nat} : ∀ (is : List Nat) (next : Nat) (done : List Nat), (∀ i ∈ is, f i = g i) →
    NoJump f next done is → NoJump g next done is := by
  intro is
  induction is with
  | nil => intro _ _ _ _; trivial
  | cons i is ih =>
    intro next done he h
    have hi := he i (List.mem_cons_self ..)
    have ht := fun j hj => he j (List.mem_cons_of_mem i hj)
    rcases h with ⟨h1, h2⟩ | ⟨h1, h2, h3⟩
    · exact Or.inl ⟨h1, ih _ _ ht h2⟩
    · exact Or.inr ⟨h1, by rw [← hi]; exact h2, by rw [← hi]; exact ih _ _ ht h3⟩

/-- **C20.** At any point of a conversation, let one side encrypt any plaintexts in a row and let the other side
receive these messages in any order, with losses and repetitions.  If their chain has not been dropped and no
first delivery jumps by more than 2000, each message is decrypted to its plaintext at its first delivery, and every
further delivery is answered with `DuplicateMessage`. -/
theorem C20_chain_any_order (hC : C.Lawful) {cv : Conv} {n0 n : Net} (h0 : Start cv n0) (h : Steps cv n0 n) (b : Bool)
    (hb : cv.waits = true → b = false → n.accepted false ≠ []) (pts : List Bytes) (hpt : ∀ pt ∈ pts, pt.length < 2 ^ 62)
    (cs : List Ciphertext) (w' : World) (he : encryptAll (n.world b) (cv.addr b) pts = some (cs, w')) :
    ∃ k first, (∀ i c, cs[i]? = some c → header c = (k, first + i)) ∧
      ∀ (ds : List Delivery) (msg : Nat → Ciphertext) (plaintext : Nat → Bytes),
        (∀ d ∈ ds, cs[d.index]? = some (msg d.index) ∧ pts[d.index]? = some (plaintext d.index)) →
        (k ∈ seenKeys (cv.start (!b)) (n.log (!b)) → retained (seenKeys (cv.start (!b)) (n.log (!b))) k) →
        NoJump (fun i => first + i) (nextCounter (n.log (!b)) k) [] (ds.map (·.index)) →
        (∀ d ∈ ds, d.seed.length = 32 ∧ C.genPub (C.genPriv d.seed) ∉ n.keys) →
        (ds.map fun d => C.genPub (C.genPriv d.seed)).Nodup →
        deliverAll (cv.addr (!b)) msg (n.world (!b)) ds = verdicts plaintext [] (ds.map (·.index)) := by
  obtain ⟨hlen, ⟨k, first, hhd⟩, hsteps⟩ := C20_one_chain_sent b hb pts hpt cs w' he
  refine ⟨k, first, hhd, ?_⟩
  intro ds msg plaintext hds hkept hjump hseed hdist
  obtain ⟨l, hl⟩ : ∃ l, (n.sent b).length = l := ⟨_, rfl⟩
  obtain ⟨n', hn'⟩ : ∃ n' : Net, n' = { n with world := upd n.world b w', sent := upd n.sent b (n.sent b ++ cs.zip pts) } :=
    ⟨_, rfl⟩
  rw [← hn'] at hsteps
  have hreach : Steps cv n0 n' := Steps.trans h hsteps
  have hold : ∀ i ∈ n.accepted (!b), i < l := by
    have := accepted_sent h0 h (!b)
    rw [Bool.not_not, hl] at this
    exact this
  have hlog : n'.log (!b) = n.log (!b) := by
    unfold Net.log
    rw [hn']
    simp only [Bool.not_not, upd_same]
    apply filterMap_congr'
    intro i hi
    rw [List.getElem?_append_left (by rw [hl]; exact hold i hi)]
  have hw : n'.world (!b) = n.world (!b) := by
    rw [hn']; exact upd_other _ _ (by cases b <;> simp)
  have hacc : n'.accepted = n.accepted := by rw [hn']
  have hkeys : n'.keys = n.keys := by rw [hn']
  have hmem : ∀ d ∈ ds.map (·.shift l), ∃ d0 ∈ ds, d = d0.shift l := by
    intro d hd
    obtain ⟨d0, h1, h2⟩ := List.mem_map.1 hd
    exact ⟨d0, h1, h2.symm⟩
  have hidx : (ds.map (·.shift l)).map (·.index) = (ds.map (·.index)).map (· + l) := by
    rw [List.map_map, List.map_map]; rfl
  have hseeds : (ds.map (·.shift l)).map (fun d => C.genPub (C.genPriv d.seed)) =
      ds.map fun d => C.genPub (C.genPriv d.seed) := by
    rw [List.map_map]; rfl
  have main := C20_any_order hC h0 hreach (!b) k (fun i => msg (i - l)) (fun i => plaintext (i - l)) (ds.map (·.shift l))
    (by
      intro d hd
      obtain ⟨d0, h1, rfl⟩ := hmem d hd
      obtain ⟨q1, q2⟩ := hds d0 h1
      simp only [Bool.not_not, Delivery.shift, Nat.add_sub_cancel]
      refine ⟨?_, by rw [hhd _ _ q1]⟩
      rw [hn']
      simp only [upd_same]
      rw [List.getElem?_append_right (by omega), hl, Nat.add_sub_cancel, List.getElem?_zip_eq_some]
      exact ⟨q1, q2⟩)
    (by rw [hlog]; exact hkept)
    (by
      rw [hlog, hidx, hacc]
      have := noJump_shift (fun i => first + i) hold _ _ _ hjump
      rw [List.map_nil, List.append_nil] at this
      refine noJump_congr _ _ _ ?_ this
      intro i hi
      obtain ⟨j, hj, rfl⟩ := List.mem_map.1 hi
      obtain ⟨d, hd, rfl⟩ := List.mem_map.1 hj
      simp only [Nat.add_sub_cancel]
      rw [hhd _ _ (hds d hd).1])
    (by
      intro d hd
      obtain ⟨d0, h1, rfl⟩ := hmem d hd
      rw [hkeys]
      exact hseed d0 h1)
    (by rw [hseeds]; exact hdist)
  rw [hw, hidx, deliverAll_shift, hacc] at main
  rw [main]
  have := verdicts_shift plaintext hold (ds.map (·.index)) []
  rw [List.map_nil, List.append_nil] at this
  exact this

end

/-! ## Non-vacuity -/

section
attribute [local instance] toy
open Example Spec

def Example.chainPts : List Bytes := [[1], [2, 2], []]
def Example.chainSent : List Ciphertext × World := (encryptAll (conv0.world true) (convCv.addr true) chainPts).getD ([], alice0)
/-- The third message arrives first, then the first, the third again, the second and the first again. -/
def Example.chainDs : List Delivery :=
  [⟨2, key 71, fun _ => key 81⟩, ⟨0, key 72, fun _ => key 82⟩, ⟨2, key 73, fun _ => key 83⟩,
   ⟨1, key 74, fun _ => key 84⟩, ⟨0, key 75, fun _ => key 85⟩]

theorem some_getD {α : Type} {o : Option α} {d : α} (h : o.isSome = true) : o = some (o.getD d) := by
  cases o with
  | none => cases h
  | some _ => rfl

theorem chain_sent : encryptAll (conv0.world true) (convCv.addr true) chainPts = some (chainSent.1, chainSent.2) := by
  have : (encryptAll (conv0.world true) (convCv.addr true) chainPts).isSome = true := by decide +kernel
  unfold chainSent
  cases h : encryptAll (conv0.world true) (convCv.addr true) chainPts with
  | none => rw [h] at this; cases this
  | some x => rfl

instance (counter : Nat → Nat) : (next : Nat) → (done is : List Nat) → Decidable (NoJump counter next done is)
  | _, _, [] => .isTrue trivial
  | next, done, i :: is =>
    have := instDecidableNoJump counter next done is
    have := instDecidableNoJump counter (max next (counter i + 1)) (done ++ [i]) is
    inferInstanceAs (Decidable ((i ∈ done ∧ _) ∨ (i ∉ done ∧ _ ∧ _)))

/-- The theorem applies to this schedule, and gives these results. -/
example : deliverAll aliceAddr (fun i => (chainSent.1[i]?).getD (.whisper noMessage)) bob0 chainDs =
    [.ok [], .ok [1], .error .duplicateMessage, .ok [2, 2], .error .duplicateMessage] := by
  obtain ⟨k, first, h1, h2⟩ := C20_chain_any_order toy_lawful conv_start .refl true (by simp) chainPts
    (by decide) chainSent.1 chainSent.2 chain_sent
  have hf : (chainSent.1[0]?).map header = some (key 42, 0) := by decide +kernel
  obtain ⟨rfl, rfl⟩ : k = key 42 ∧ first = 0 := by
    cases h : chainSent.1[0]? with
    | none => rw [h] at hf; cases hf
    | some c =>
      rw [h] at hf
      have := h1 0 c h
      rw [Option.map_some, this] at hf
      exact Prod.mk.inj (Option.some.inj hf)
  have hrest := h2 chainDs (fun i => (chainSent.1[i]?).getD (.whisper noMessage)) (fun i => (chainPts[i]?).getD [])
    (by
      have h : ∀ d ∈ chainDs, (chainSent.1[d.index]?).isSome = true ∧ (chainPts[d.index]?).isSome = true := by
        decide +kernel
      intro d hd
      obtain ⟨q1, q2⟩ := h d hd
      exact ⟨some_getD q1, some_getD q2⟩)
    (by intro h; cases h) (by decide +kernel) (by decide +kernel) (by decide +kernel)
  exact hrest

end
end Axolotl
