import Verif.Proofs.Restore
import Verif.Props.Concurrent

/-! # C92: restoring a backup -/

namespace Axolotl
section
variable [C : Crypto]
open SessionState
open Spec (GoodPair Net Conv Step Steps Start header nextCounter seenKeys retained Readable Mixed)

omit C in
theorem log_same {n m : Net} {a : Bool} (ha : n.accepted a = m.accepted a)
    (hs : ∀ i ∈ m.accepted a, (n.sent !a)[i]? = (m.sent !a)[i]?) : n.log a = m.log a := by
  unfold Net.log
  rw [ha]
  exact filterMap_congr' fun i hi => by rw [hs i hi]

omit C in
theorem prefix_get {α : Type} {l l' : List α} (h : l <+: l') {i : Nat} (hi : i < l.length) : l[i]? = l'[i]? := by
  obtain ⟨t, rfl⟩ := h
  rw [List.getElem?_append_left hi]

theorem readable_of_inv (hC : C.Lawful) {cv : Conv} {n : Net} (h : ConvInv cv n) : Readable cv n := by
  intro b i c pt seed seeds hi hseed hfresh o
  constructor
  · intro ha hl
    exact (conv_deliver hC h seeds hi (fun _ => hl) (fun x => absurd x ha) hseed hfresh).2.1 ha
  · intro ha hl
    exact (conv_deliver hC h seeds hi (fun x => absurd ha x) (fun _ => hl) hseed hfresh).2.2 ha

/-- **C92**, unheard.  If the peer has accepted nothing that was sent after the backup, then putting the backup back gives an
ordinary moment of the conversation: one in which the restored side simply did nothing since. -/
theorem C92_unheard {cv : Conv} {n1 m : Net} (hm : Steps cv n1 m) {b : Bool}
    (hun : ∀ i ∈ m.accepted (!b), i < (n1.sent b).length) :
    ∃ n, Steps cv n1 n ∧ Mixed b n1 m (n1.sent b) n := by
  induction hm with
  | refl => exact ⟨n1, .refl, rfl, rfl, rfl, rfl, rfl, rfl, fun _ h => h⟩
  | @step m m' hsteps hs ih =>
    have hne : (!b) ≠ b := by cases b <;> simp
    have hpre := steps_sent hsteps b
    cases hs with
    | @send a pt c h1 h2 h3 =>
      simp only at hun
      obtain ⟨n, hn, q⟩ := ih hun
      by_cases hab : a = b
      · subst hab
        refine ⟨n, hn, q.world, q.accepted, q.sent, ?_, q.peerAccepted, ?_, q.keys⟩
        · simp only [upd_other _ _ hne]; exact q.peerWorld
        · simp only [upd_other _ _ hne]; exact q.peerSent
      · obtain rfl : a = !b := by cases a <;> cases b <;> simp_all
        refine ⟨_, hn.step (Step.send (b := !b) (pt := pt) (c := c) ?_ h2 (by rw [q.peerWorld]; exact h3)), ?_⟩
        · intro hw hb
          have hacc := q.peerAccepted
          rw [hb] at hacc
          rw [hacc]
          exact h1 hw hb
        · have hbn : b ≠ !b := fun e => hne e.symm
          refine ⟨?_, q.accepted, ?_, ?_, q.peerAccepted, ?_, q.keys⟩
          · simp only [upd_other _ _ hbn]; exact q.world
          · simp only [upd_other _ _ hbn]; exact q.sent
          · simp only [upd_same]; rw [q.peerWorld]
          · simp only [upd_same]; rw [q.peerSent]
    | @deliver a i c pt seed seeds h1 h2 h3 h4 h5 =>
      by_cases hab : a = b
      · subst hab
        simp only [upd_other _ _ hne] at hun
        obtain ⟨n, hn, q⟩ := ih hun
        refine ⟨n, hn, q.world, q.accepted, q.sent, ?_, ?_, q.peerSent, fun k hk => List.mem_cons_of_mem _ (q.keys k hk)⟩
        · simp only [upd_other _ _ hne]; exact q.peerWorld
        · simp only [upd_other _ _ hne]; exact q.peerAccepted
      · obtain rfl : a = !b := by cases a <;> cases b <;> simp_all
        have hbn : b ≠ !b := fun e => hne e.symm
        simp only [upd_same] at hun
        have hsub : ∀ j ∈ m.accepted (!b), j < (n1.sent b).length := by
          intro j hj
          apply hun
          split
          · exact hj
          · exact List.mem_append_left _ hj
        have hi : i < (n1.sent b).length := by
          apply hun
          split
          · assumption
          · simp
        obtain ⟨n, hn, q⟩ := ih hsub
        rw [Bool.not_not] at h1
        have hlog : n.log (!b) = m.log (!b) := by
          refine log_same q.peerAccepted ?_
          intro j hj
          rw [Bool.not_not, q.sent]
          exact prefix_get hpre (hsub j hj)
        refine ⟨_, hn.step (Step.deliver (b := !b) (i := i) (c := c) (pt := pt) (seed := seed) (seeds := seeds) ?_ ?_ ?_ h4
          (fun x => h5 (q.keys _ x))), ?_⟩
        · rw [Bool.not_not, q.sent, prefix_get hpre hi]; exact h1
        · rw [q.peerAccepted]
          unfold Net.inLimits
          rw [hlog]
          exact h2
        · rw [q.peerAccepted]
          unfold Net.remembered
          rw [hlog]
          exact h3
        · refine ⟨?_, ?_, q.sent, ?_, ?_, q.peerSent, ?_⟩
          · simp only [upd_other _ _ hbn]; exact q.world
          · simp only [upd_other _ _ hbn]; exact q.accepted
          · simp only [upd_same]; rw [q.peerWorld]
          · simp only [upd_same]; rw [q.peerAccepted]
          · intro k hk
            rcases List.mem_cons.1 hk with rfl | hk
            · exact List.mem_cons_self ..
            · exact List.mem_cons_of_mem _ (q.keys k hk)
    | @other a call h1 h2 h3 =>
      obtain ⟨n, hn, q⟩ := ih hun
      by_cases hab : a = b
      · subst hab
        refine ⟨n, hn, q.world, q.accepted, q.sent, ?_, q.peerAccepted, q.peerSent, q.keys⟩
        simp only [upd_other _ _ hne]; exact q.peerWorld
      · obtain rfl : a = !b := by cases a <;> cases b <;> simp_all
        have hbn : b ≠ !b := fun e => hne e.symm
        refine ⟨_, hn.step (Step.other (b := !b) (call := call) (by rw [q.peerWorld]; exact h1) ?_
          (by rw [q.peerWorld]; exact h3)), ?_⟩
        · rw [q.peerWorld]
          rw [Bool.not_not] at h2 ⊢
          rw [q.world, ← conv_identity hsteps b]
          exact h2
        · refine ⟨?_, q.accepted, q.sent, ?_, q.peerAccepted, q.peerSent, q.keys⟩
          · simp only [upd_other _ _ hbn]; exact q.world
          · simp only [upd_same]; rw [q.peerWorld]

/-- **C92**, ratchet keys older than the backup.  Both continuations of moment `n1`: what a side wrote in one of them, under a
ratchet key that existed at `n1`, is delivered to the other side in the other one.  It is refused as a duplicate if a message
with the same ratchet key and number was accepted there, and otherwise, within the limits, decrypted to what was encrypted. -/
theorem C92_fork (hC : C.Lawful) {cv : Conv} {n0 n1 m n : Net} (h0 : Start cv n0) (h1 : Steps cv n0 n1) (hm : Steps cv n1 m)
    (hn : Steps cv n1 n) {b : Bool} (hopen : cv.waits = true → b = false → n.accepted false ≠ []) {i : Nat} {c : Ciphertext}
    {pt : Bytes} (hi : (m.sent (!b))[i]? = some (c, pt)) (hold : (header c).1 ∈ n1.keys) {seed : Bytes}
    (hseed : seed.length = 32) (seeds : Nat → Bytes) :
    let o := Spec.receive (n.world b) (cv.addr b) c.getType c.serialize seed seeds
    (header c ∉ n.log b → n.inLimits cv b (header c) → o.result = .ok pt) ∧
    (header c ∈ n.log b → n.remembered cv b (header c) →
      o.result = .error .duplicateMessage ∧ (o.final (n.world b)).sessions = (n.world b).sessions ∧
      (o.final (n.world b)).preKeys = (n.world b).preKeys) := by
  intro o
  obtain ⟨ids, _, _, _, hid0, hd, g0, hgw0, _⟩ := start_full hC h0
  have hc0 : ConvFrom hd n0.keys g0 ids cv n0 := ⟨⟨g0, hgw0.1, hgw0.2, .refl _ _⟩, fun _ h => h⟩
  obtain ⟨⟨⟨g1, hg1, hw1, _⟩, _⟩, hid1⟩ := steps_from hC hid0 hc0 (fun _ => rfl) h1
  have hc1 : ConvFrom hd n1.keys g1 ids cv n1 := ⟨⟨g1, hg1, hw1, .refl _ _⟩, fun _ h => h⟩
  obtain ⟨⟨⟨gm, hgm, hwm, hem⟩, _⟩, _⟩ := steps_from hC hid0 hc1 hid1 hm
  obtain ⟨⟨⟨gn, hgn, hwn, hen⟩, _⟩, _⟩ := steps_from hC hid0 hc1 hid1 hn
  obtain ⟨t, k, l1, l2, l3, l4⟩ := hgm.locate hi
  have hj : 2 * t + off b ≤ g1.top := hem.old l2 (by rw [l3] at hold; exact hold)
  rw [hem.same _ hj, ← hen.same _ hj] at l3 l4
  have hwire := hwm.wire _ _ _ _ hi
  rcases hwn.sides b with ⟨r, q1, q2, q3, q4⟩ | ⟨rfl, q⟩
  rotate_left
  · exact absurd q.accepted (hopen q.waits rfl)
  obtain ⟨ws, hws, hrec⟩ := Open.receive_eq (b := b) (hd := hd) (ids := ids) q1
    (fun x y => ⟨q2.version, q4 x y⟩) (by rintro rfl y; exact hwn.trusted y) hwire seed seeds
  obtain ⟨r1, r2⟩ := hgn.reads hC q2 (Nat.le_trans hj hen.top) l4 hseed
  rw [l3]
  constructor
  · intro ha hl
    obtain ⟨s', e⟩ := r1 ha hl
    rw [dwsr_forward (r := { r with fresh := false }) seeds e] at hrec
    show (Spec.receive _ _ _ _ _ _).result = _
    rw [hrec]
  · intro ha hl
    have e := r2 ha hl
    rw [dwsr_duplicate (r := { r with fresh := false }) seeds e] at hrec
    simp only at hrec
    show (Spec.receive _ _ _ _ _ _).result = _ ∧ ((Spec.receive _ _ _ _ _ _).final _).sessions = _ ∧
      ((Spec.receive _ _ _ _ _ _).final _).preKeys = _
    rw [hrec]
    refine ⟨rfl, ?_⟩
    show ((n.world b).applyAll ws).sessions = _ ∧ ((n.world b).applyAll ws).preKeys = _
    rcases hws with rfl | ⟨_, _, rfl⟩ <;> exact ⟨rfl, rfl⟩

/-! ## The first new ratchet key after the backup -/

/-- The restored side reads the first message under a ratchet key that it does not know. -/
theorem restore_turn (hC : C.Lawful) {cv : Conv} {n1 m : Net} {ids : Bool → ECPub} {hd : PkHeader} {g1 gm : Ghost .v3}
    (hg1 : GInv cv ids n1 g1) (hw1 : WInv cv ids hd n1 g1) (hgm : GInv cv ids m gm) (hwm : WInv cv ids hd m gm)
    (hem : g1.Extends n1.keys gm) {b : Bool} (hpre : n1.sent (!b) <+: m.sent (!b))
    (hsent : ∀ x ∈ m.sent b, (header x.1).1 ∈ n1.keys) (hopen : cv.waits = true → b = false → n1.accepted false ≠ [])
    {i : Nat} {c : Ciphertext} {pt : Bytes} (hi : (m.sent (!b))[i]? = some (c, pt))
    (hnew : (header c).1 ∉ seenKeys (cv.start b) (n1.log b)) (hk2 : (header c).2 ≤ 2000) {keys : List ECPub}
    (hkeys : ∀ x ∈ m.keys, x ∈ keys) {seed : Bytes} (hseed : seed.length = 32) (hfresh : C.genPub (C.genPriv seed) ∉ keys)
    (seeds : Nat → Bytes) :
    let o := Spec.receive (n1.world b) (cv.addr b) c.getType c.serialize seed seeds
    o.result = .ok pt ∧ ConvAt .v3 ids cv
      { world := upd m.world b (o.final (n1.world b)), sent := m.sent, accepted := upd m.accepted b (n1.accepted b ++ [i]),
        keys := C.genPub (C.genPriv seed) :: keys } := by
  intro o
  have hoff : off b + off (!b) = 1 := by cases b <;> rfl
  have hne : (!b) ≠ b := by cases b <;> simp
  have he1 := hg1.e_succ b
  have hhi1 := hg1.hi b
  have hlo1 := hg1.lo b
  -- the epochs of what the restored side sent
  have hold : ∀ (i : Nat) (c : Ciphertext) (pt : Bytes), (m.sent b)[i]? = some (c, pt) → ∀ t k, 2 * t + off (!b) ≤ gm.top →
      Genuine (ids b) (ids !b) (gm.E (2 * t + off (!b))) k pt c.inner → 2 * t + off (!b) ≤ g1.e b := by
    intro i c pt hx t k ht hgen
    have hk := hsent _ (List.mem_of_getElem? hx)
    unfold header at hk
    simp only at hk
    rw [hgen.key] at hk
    have := hem.old ht hk
    omega
  -- the epoch of the peer
  have hpeer : gm.e (!b) ≤ g1.e b + 1 := by
    have hes := hgm.e_succ (!b)
    rcases Nat.eq_zero_or_pos (gm.full (!b)).length with h0 | hpos
    · omega
    · have ht : (gm.full (!b)).length - 1 < (gm.full (!b)).length := by omega
      have hin := hgm.in_seen ht
      have hpos' := hgm.pos_le ht
      have hkk : (gm.E (2 * ((gm.full (!b)).length - 1) + off (!b))).pub ∈ n1.keys := by
        rcases seen_from hin with hs | ⟨x, hx⟩
        · obtain ⟨r, hr, hre⟩ := List.mem_map.1 (hg1.seen (!b) ▸ start_seen hs)
          obtain ⟨t, ht', rfl⟩ := List.mem_iff_getElem.1 hr
          rw [← hre, hg1.ep (!b) t _ (List.getElem?_eq_getElem ht')]
          exact hg1.keys _ (hg1.pos_le ht')
        · unfold Net.log at hx
          rw [Bool.not_not, List.mem_filterMap] at hx
          obtain ⟨j, _, hj⟩ := hx
          obtain ⟨y, hy, hyh⟩ := Option.map_eq_some_iff.1 hj
          have := hsent _ (List.mem_of_getElem? hy)
          rw [hyh] at this
          exact this
      have := hem.old hpos' hkk
      omega
  -- the epoch of the message
  obtain ⟨t, k, l0, l1, _, l4⟩ := hgm.msg (!b) i c pt hi
  rw [Bool.not_not] at l0 l1 l4
  have l2 : 2 * t + off b ≤ gm.top := Nat.le_trans l1 (hgm.lo _)
  have l3 : header c = ((gm.E (2 * t + off b)).pub, k) := by unfold header; rw [l4.key, l4.counter]
  have htl : t = (g1.full b).length := by
    by_cases hlt : t < (g1.full b).length
    · exfalso
      apply hnew
      have := hg1.in_seen hlt
      rw [← hem.same _ (hg1.pos_le hlt)] at this
      rw [l3]
      exact this
    · omega
  have hidx : 2 * t + off b = g1.e b + 1 := by rw [htl]; omega
  rw [hidx] at l2 l3 l4
  have hepeer : gm.e (!b) = g1.e b + 1 := by omega
  have hsame : ∀ j, j ≤ g1.e b → gm.E j = g1.E j := fun j hj => hem.same j (by omega)
  -- the moment before
  let g0 : Ghost .v3 :=
    { E := gm.E, top := g1.e b + 1, n := upd gm.n b (2 ^ 32 - 1), full := upd gm.full b (g1.full b), tag := gm.tag }
  let N0 : Net := { world := m.world, sent := m.sent, accepted := upd m.accepted b (n1.accepted b), keys := keys }
  have hfb : g0.full b = g1.full b := upd_same ..
  have hfo : g0.full (!b) = gm.full (!b) := upd_other _ _ hne
  have heb : g0.e b = g1.e b := by unfold Ghost.e; rw [hfb]
  have heo : g0.e (!b) = gm.e (!b) := by unfold Ghost.e; rw [hfo]
  have hlogb : N0.log b = n1.log b := by
    refine log_same (upd_same ..) ?_
    intro j hj
    exact (prefix_get hpre (hg1.valid b j hj)).symm
  have hlogo : N0.log (!b) = m.log (!b) := log_same (upd_other _ _ hne) fun _ _ => rfl
  have sides : ∀ (P : Bool → Prop), P b → P (!b) → ∀ a, P a := by
    intro P h1 h2 a
    by_cases hab : a = b
    · rw [hab]; exact h1
    · obtain rfl : a = !b := by cases a <;> cases b <;> simp_all
      exact h2
  have hG0 : GInv cv ids N0 g0 := by
    refine ⟨hgm.idsLen, ?_, ?_, ?_, ?_, ?_, ?_, ?_, ?_, ?_, ?_, ?_, ?_, ?_, ?_, hgm.tags, ?_⟩
    · cases b with
      | true => rw [hfb]; exact hg1.nonempty
      | false => exact hfo ▸ hgm.nonempty
    · exact sides _ (by rw [heb]; show g1.e b ≤ g1.e b + 1; omega) (by rw [heo, hepeer]; exact Nat.le_refl _)
    · exact sides _ (by rw [heb]; exact Nat.le_refl _) (by rw [heo, hepeer]; show g1.e b + 1 ≤ g1.e b + 1 + 1; omega)
    · refine sides _ ?_ ?_
      · show upd gm.n b (2 ^ 32 - 1) b < 2 ^ 32
        rw [upd_same]; decide
      · show upd gm.n b (2 ^ 32 - 1) (!b) < 2 ^ 32
        rw [upd_other _ _ hne]; exact hgm.nlt _
    · exact fun j hj => hgm.good j (Nat.le_trans hj l2)
    · exact fun j hj => hgm.next j (Nat.lt_of_lt_of_le hj l2)
    · exact fun i j h1 h2 => hgm.inj i j (Nat.le_trans h1 l2) (Nat.le_trans h2 l2)
    · exact fun j hj => hkeys _ (hgm.keys j (Nat.le_trans hj l2))
    · refine sides _ ?_ ?_
      · intro t r hr
        rw [hfb] at hr
        rw [hg1.ep b t r hr]
        exact (hem.same _ (hg1.pos_le (List.getElem?_eq_some_iff.1 hr).1)).symm
      · intro t r hr
        rw [hfo] at hr
        exact hgm.ep _ t r hr
    · exact sides _ (by rw [hlogb, hfb]; exact hg1.seen b) (by rw [hlogo, hfo]; exact hgm.seen _)
    · exact sides _ (by rw [hlogb, hfb]; exact hg1.index b) (by rw [hlogo, hfo]; exact hgm.index _)
    · exact sides _ (by rw [hlogb, hfb]; exact hg1.missing b) (by rw [hlogo, hfo]; exact hgm.missing _)
    · exact sides _ (by rw [hfb]; exact hg1.nodup b) (by rw [hfo]; exact hgm.nodup _)
    · refine sides _ ?_ ?_
      · intro i c pt hx
        obtain ⟨t, k, m1, m2, m3, m4⟩ := hgm.msg b i c pt hx
        refine ⟨t, k, m1, ?_, ?_, m4⟩
        · rw [heb]
          exact hold i c pt hx t k (Nat.le_trans m2 (hgm.lo b)) m4
        · intro _
          show k < upd gm.n b (2 ^ 32 - 1) b
          rw [upd_same]
          have := m4.bound
          omega
      · intro i c pt hx
        obtain ⟨t, k, m1, m2, m3, m4⟩ := hgm.msg (!b) i c pt hx
        refine ⟨t, k, m1, by rw [heo]; exact m2, ?_, m4⟩
        intro e
        rw [heo] at e
        show k < upd gm.n b (2 ^ 32 - 1) (!b)
        rw [upd_other _ _ hne]
        exact m3 e
    · refine sides _ ?_ ?_
      · intro j hj
        have hj : j ∈ upd m.accepted b (n1.accepted b) b := hj
        rw [upd_same] at hj
        exact Nat.lt_of_lt_of_le (hg1.valid b j hj) hpre.length_le
      · intro j hj
        have hj : j ∈ upd m.accepted b (n1.accepted b) (!b) := hj
        rw [upd_other _ _ hne] at hj
        exact hgm.valid _ j hj
  -- reading
  obtain ⟨r, q1, q2, q3, q4⟩ : Open cv ids hd g1 b (n1.world b) := by
    rcases hw1.sides b with ho | ⟨rfl, q⟩
    · exact ho
    · exact absurd q.accepted (hopen q.waits rfl)
  obtain ⟨ws, hws, hrec⟩ := Open.receive_eq (b := b) (hd := hd) (ids := ids) q1
    (fun x y => ⟨q2.version, q4 x y⟩) (by rintro rfl y; exact hw1.trusted y) (hwm.wire _ _ _ _ hi) seed seeds
  obtain ⟨o1, o2⟩ := hg1.last5_ok hC b
  have hgE := hgm.good _ l2
  have hz := nextEpoch_good hC (gm.E (g1.e b + 1)) hseed
  have hyz := nextEpoch_next hC hgE hseed
  have hnx := hgm.next (g1.e b) (by omega)
  rw [hsame _ (Nat.le_refl _)] at hnx
  obtain ⟨s', d1, d2, d3⟩ := recv_new hC (hg1.idsLen b) (hg1.idsLen !b) q2 (hg1.nlt b) (hg1.good _ hlo1) hgE o1
    (last5_length _)
    (by
      intro r hr e
      apply hnew
      rw [hg1.seen b, l3]
      exact List.mem_map.2 ⟨r, last5_sub hr, e⟩)
    hnx l4 (by rw [l3] at hk2; exact hk2) (z := nextEpoch (gm.E (g1.e b + 1)) seed) rfl rfl hyz
  rw [dwsr_forward (r := { r with fresh := false }) seeds d1] at hrec
  simp only at hrec
  have ho : o = ⟨ws ++ [.session (cv.addr b) ({ r with fresh := false }.setState s')], .ok pt⟩ := hrec
  refine ⟨by rw [ho], hd, _, hG0.recvNew (b := b) (i := i) (c := c) (pt := pt) (k := k) (z := nextEpoch (gm.E (g1.e b + 1)) seed)
    hi ?_ l3 hz hyz hfresh rfl ?_ rfl, ?_⟩
  · rw [hfb]; exact he1
  · show upd m.accepted b (n1.accepted b ++ [i]) = upd (upd m.accepted b (n1.accepted b)) b
      (upd m.accepted b (n1.accepted b) b ++ [i])
    rw [upd_same]
    funext a
    by_cases hab : a = b
    · subst hab; rw [upd_same, upd_same]
    · rw [upd_other _ _ hab, upd_other _ _ hab, upd_other _ _ hab]
  · have hf : o.final (n1.world b) =
        (n1.world b).applyAll (ws ++ [.session (cv.addr b) ({ r with fresh := false }.setState s')]) := by rw [ho]; rfl
    have hnotw : ¬ ((!b) = false ∧ Waiting cv ids hd m gm) := by
      rintro ⟨hb, q⟩
      have := q.silent
      rw [hb, this] at hi
      cases hi
    obtain ⟨p1, _, p3⟩ := dwss_same d1
    have hopenb : Open cv ids hd
        { g0 with E := upd g0.E (g0.top + 1) (nextEpoch (gm.E (g1.e b + 1)) seed), top := g0.top + 1, n := upd g0.n b 0,
                  full := upd g0.full b (g0.full b ++ [⟨g0.E g0.top, k + 1, List.range' 0 k⟩]) } b (o.final (n1.world b)) := by
      refine ⟨{ r with fresh := false }.setState s', ?_, ?_, Or.inl p3, ?_⟩
      · rw [hf]
        rcases hws with rfl | ⟨_, _, rfl⟩ <;> simp [World.applyAll, World.apply, upd]
      · have hee : 2 * (g0.full b ++ [(⟨g0.E g0.top, k + 1, List.range' 0 k⟩ : Recv _)]).length + off b - 1 = g0.top + 1 := by
          rw [List.length_append, List.length_singleton, hfb]
          show _ = g1.e b + 1 + 1
          omega
        unfold Ghost.e
        simp only
        rw [upd_same, hee, upd_same, upd_same, hfb]
        rw [last5_append_self] at d2
        exact d2
      · intro x y
        show s'.aliceBaseKey = _
        rw [← q4 x y]
        exact p1.2.2.2.1
    refine ⟨hwm.v3, hwm.hdr, hwm.wire, ?_, ?_, ?_⟩
    · intro hwt
      obtain ⟨t1, t2⟩ := hwm.trust hwt
      by_cases hb : false = b
      · subst hb
        obtain ⟨t1, t2⟩ := hw1.trust hwt
        simp only [upd_same]
        rw [hf, applyAll_other.2.2.2]
        refine ⟨t1, ?_⟩
        rcases hws with rfl | ⟨_, _, rfl⟩
        · exact t2
        · right
          simp [World.applyAll, World.apply, upd]
      · simp only [upd_other _ _ hb]; exact ⟨t1, t2⟩
    · refine sides _ ?_ ?_
      · left
        simp only [upd_same]
        exact hopenb
      · left
        rcases hwm.sides (!b) with ⟨r, u1, u2, u3⟩ | q
        · refine ⟨r, by simp only [upd_other _ _ hne]; exact u1, ?_, u3⟩
          have hE : upd gm.E (g1.e b + 1 + 1) (nextEpoch (gm.E (g1.e b + 1)) seed) (gm.e (!b)) = gm.E (gm.e (!b)) :=
            upd_other _ _ (by omega)
          have hf0 : upd g0.full b (g0.full b ++ [⟨g0.E g0.top, k + 1, List.range' 0 k⟩]) (!b) = gm.full (!b) := by
            rw [upd_other _ _ hne, hfo]
          have hn0 : upd g0.n b 0 (!b) = gm.n (!b) := by
            rw [upd_other _ _ hne]; exact upd_other _ _ hne
          unfold Ghost.e
          simp only
          rw [hf0, hn0]
          show Party _ _ (upd gm.E (g1.e b + 1 + 1) (nextEpoch (gm.E (g1.e b + 1)) seed) (gm.e (!b))) _ _ _
          rw [hE]
          exact u2
        · exact absurd q hnotw
    · intro hwt hacc
      exfalso
      by_cases hb : false = b
      · subst hb
        simp only [upd_same] at hacc
        simp at hacc
      · simp only [upd_other _ _ hb] at hacc
        exact hnotw ⟨by cases b <;> simp_all, hwm.waiting hwt hacc⟩

/-- The restored side's messages under ratchet keys older than the backup come before all others. -/
theorem restore_cut (hC : C.Lawful) {cv : Conv} {n1 m : Net} {ids : Bool → ECPub} {hd : PkHeader} {g1 : Ghost .v3}
    (hg1 : GInv cv ids n1 g1) (hw1 : WInv cv ids hd n1 g1) {kp : Bool → KeyPair} (hkp : ∀ b, (kp b).pub = ids b)
    (hid : ∀ b, (n1.world b).identityKeyPair = kp b) (hm : Steps cv n1 m) (b : Bool) :
    ∃ p, Steps cv n1 p ∧ Steps cv p m ∧ (∀ x ∈ p.sent b, (header x.1).1 ∈ n1.keys) ∧
      ∀ (i : Nat) (x : Ciphertext × Bytes), (p.sent b).length ≤ i → (m.sent b)[i]? = some x → (header x.1).1 ∉ n1.keys := by
  have hc1 : ConvFrom hd n1.keys g1 ids cv n1 := ⟨⟨g1, hg1, hw1, .refl _ _⟩, fun _ h => h⟩
  have older : ∀ {m : Net} {g : Ghost .v3}, GInv cv ids m g → g1.Extends n1.keys g → g.e b ≤ g1.top →
      ∀ x ∈ m.sent b, (header x.1).1 ∈ n1.keys := by
    rintro m g hg hext hle ⟨c, pt⟩ hx
    obtain ⟨i, hi⟩ := List.mem_iff_getElem?.1 hx
    obtain ⟨t, k, _, h2, _, h4⟩ := hg.msg b i c pt hi
    unfold header
    simp only
    rw [h4.key, hext.same _ (Nat.le_trans h2 hle)]
    exact hg1.keys _ (Nat.le_trans h2 hle)
  induction hm with
  | refl =>
    refine ⟨n1, .refl, .refl, older hg1 (.refl _ _) (hg1.lo b), fun i x hi hx => ?_⟩
    have := (List.getElem?_eq_some_iff.1 hx).1
    omega
  | @step m m' hsteps hs ih =>
    obtain ⟨p, s1, s2, s3, s4⟩ := ih
    cases hs with
    | @send a pt c h1 h2 h3 =>
      by_cases hab : a = b
      · subst hab
        obtain ⟨⟨⟨g, hg, hw, hext⟩, _⟩, _⟩ := steps_from hC hkp hc1 hid hsteps
        have ho : Open cv ids hd g a (m.world a) := by
          rcases hw.sides a with ho | ⟨hb, hwt⟩
          · exact ho
          · exact absurd hwt.accepted (h1 hwt.waits hb)
        obtain ⟨c', _, e1, _, e3, _⟩ := ho.encrypt hg hw.v3 hw.hdr hC (ho.limit h3) h2
        have h3' := h3
        rw [e1] at h3'
        obtain rfl : c' = c := Except.ok.inj h3'
        by_cases hk : (header c').1 ∈ n1.keys
        · have hk' := hk
          unfold header at hk'
          simp only at hk'
          rw [e3.key] at hk'
          have hle := hext.old (hg.lo a) hk'
          refine ⟨_, hsteps.step (Step.send h1 h2 h3), .refl, ?_, ?_⟩
          · simp only [upd_same]
            intro x hx
            rcases List.mem_append.1 hx with hx | hx
            · exact older hg hext hle x hx
            · rw [List.mem_singleton.1 hx]; exact hk
          · intro i x hi hx
            have := (List.getElem?_eq_some_iff.1 hx).1
            omega
        · refine ⟨p, s1, s2.step (Step.send h1 h2 h3), s3, ?_⟩
          simp only [upd_same]
          intro i x hi hx
          by_cases hl : i < (m.sent a).length
          · rw [List.getElem?_append_left hl] at hx
            exact s4 i x hi hx
          · rw [List.getElem?_append_right (by omega)] at hx
            have := List.mem_of_getElem? hx
            rw [List.mem_singleton.1 this]
            exact hk
      · refine ⟨p, s1, s2.step (Step.send h1 h2 h3), s3, ?_⟩
        have hba : b ≠ a := fun e => hab e.symm
        simp only [upd_other _ _ hba]
        exact s4
    | deliver h1 h2 h3 h4 h5 => exact ⟨p, s1, s2.step (Step.deliver h1 h2 h3 h4 h5), s3, s4⟩
    | other h1 h2 h3 => exact ⟨p, s1, s2.step (Step.other h1 h2 h3), s3, s4⟩

/-- **C92**, healing.  The peer has seen no ratchet key that the restored side generated after the backup.  Then the restored side
reads the peer's messages under a new ratchet key; and once it has read one, the conversation is intact: both sides read
everything from then on, as if the messages sent under forgotten ratchet keys had never been sent. -/
theorem C92_healed (hC : C.Lawful) {cv : Conv} {n0 n1 m : Net} (h0 : Start cv n0) (h1 : Steps cv n0 n1) (hm : Steps cv n1 m)
    {b : Bool} (hopen : cv.waits = true → b = false → n1.accepted false ≠ []) (hseen : ∀ h ∈ m.log (!b), h.1 ∈ n1.keys)
    {i : Nat} {c : Ciphertext} {pt : Bytes} (hi : (m.sent (!b))[i]? = some (c, pt))
    (hnew : (header c).1 ∉ seenKeys (cv.start b) (n1.log b)) (hk : (header c).2 ≤ 2000) {seed : Bytes}
    (hseed : seed.length = 32) (hfresh : C.genPub (C.genPriv seed) ∉ m.keys) (seeds : Nat → Bytes) :
    let o := Spec.receive (n1.world b) (cv.addr b) c.getType c.serialize seed seeds
    o.result = .ok pt ∧ ∃ sent : List (Ciphertext × Bytes), sent <+: m.sent b ∧
      (∀ x ∈ m.sent b, x ∈ sent ↔ (header x.1).1 ∈ n1.keys) ∧
      ∀ n, Steps cv
        { world := upd m.world b (o.final (n1.world b)), sent := upd m.sent b sent,
          accepted := upd m.accepted b (n1.accepted b ++ [i]), keys := C.genPub (C.genPriv seed) :: m.keys } n →
        Readable cv n := by
  intro o
  have hne : (!b) ≠ b := by cases b <;> simp
  obtain ⟨ids, _, _, _, hid0, hd, g0, hgw0, _⟩ := start_full hC h0
  have hc0 : ConvFrom hd n0.keys g0 ids cv n0 := ⟨⟨g0, hgw0.1, hgw0.2, .refl _ _⟩, fun _ h => h⟩
  obtain ⟨⟨⟨g1, hg1, hw1, _⟩, _⟩, hid1⟩ := steps_from hC hid0 hc0 (fun _ => rfl) h1
  have hc1 : ConvFrom hd n1.keys g1 ids cv n1 := ⟨⟨g1, hg1, hw1, .refl _ _⟩, fun _ h => h⟩
  obtain ⟨⟨⟨gm, hgm, _, _⟩, _⟩, hidm⟩ := steps_from hC hid0 hc1 hid1 hm
  obtain ⟨p, s1, s2, s3, s4⟩ := restore_cut hC hg1 hw1 hid0 hid1 hm b
  have hpre := steps_sent s2 b
  obtain ⟨n, hn, q⟩ := C92_unheard s2 (b := b) (by
    intro j hj
    rcases Nat.lt_or_ge j (p.sent b).length with hlt | hge
    · exact hlt
    · have hv := hgm.valid _ j hj
      rw [Bool.not_not] at hv
      have hx := List.getElem?_eq_getElem hv
      refine absurd (hseen _ ?_) (s4 j _ hge hx)
      unfold Net.log
      rw [List.mem_filterMap]
      exact ⟨j, hj, by rw [Bool.not_not, hx]; rfl⟩)
  have hsn : Steps cv n1 n := conv_steps_trans s1 hn
  obtain ⟨⟨⟨gn, hgn, hwn, hen⟩, _⟩, hidn⟩ := steps_from hC hid0 hc1 hid1 hsn
  obtain ⟨r1, r2⟩ := restore_turn hC hg1 hw1 hgn hwn hen (b := b) (steps_sent hsn _) (by rw [q.sent]; exact s3) hopen
    (by rw [q.peerSent]; exact hi) hnew hk q.keys hseed hfresh seeds
  refine ⟨r1, p.sent b, hpre, ?_, ?_⟩
  · intro x hx
    refine ⟨s3 x, fun hold => ?_⟩
    obtain ⟨j, hj⟩ := List.mem_iff_getElem?.1 hx
    rcases Nat.lt_or_ge j (p.sent b).length with hlt | hge
    · rw [← prefix_get hpre hlt] at hj
      exact List.mem_of_getElem? hj
    · exact absurd hold (s4 j x hge hj)
  · intro N hN
    have split : ∀ {α : Type} (f g : Bool → α) (x : α), f (!b) = g (!b) → upd f b x = upd g b x := by
      intro α f g x e
      funext a
      by_cases hab : a = b
      · subst hab; rw [upd_same, upd_same]
      · rw [upd_other _ _ hab, upd_other _ _ hab]
        obtain rfl : a = !b := by cases a <;> cases b <;> simp_all
        exact e
    have hsame : upd m.sent b (p.sent b) = n.sent := by
      funext a
      by_cases hab : a = b
      · subst hab; rw [upd_same, q.sent]
      · rw [upd_other _ _ hab]
        obtain rfl : a = !b := by cases a <;> cases b <;> simp_all
        exact q.peerSent.symm
    rw [hsame, ← split n.world m.world _ q.peerWorld, ← split n.accepted m.accepted _ q.peerAccepted] at hN
    refine readable_of_inv hC (steps_inv hC hN ⟨.v3, ids, fun _ => ?_, r2⟩)
    intro a
    show (upd n.world b (o.final (n1.world b)) a).identityKeyPair.pub = _
    by_cases hab : a = b
    · subst hab
      rw [upd_same, final_identity, hid1, hid0]
    · rw [upd_other _ _ hab, hidn, hid0]

/-- **C92**, the next message.  Whatever a side sends first from a state that it puts back, it sends with the ratchet key, the
number, the cipher key and the IV of what it sent first from that state before. -/
theorem C92_same_key {w : World} {a : Address} {pt pt' : Bytes} {c c' : Ciphertext}
    (h : (SessionCipher.encrypt w a pt).result = .ok c) (h' : (SessionCipher.encrypt w a pt').result = .ok c') :
    header c' = header c ∧ ∃ key iv, AES.encrypt key iv pt = .ok c.inner.ciphertext ∧
      AES.encrypt key iv pt' = .ok c'.inner.ciphertext := by
  obtain ⟨_, _, hcnt, hkey, _⟩ := C16_encrypt w a _ c h
  obtain ⟨_, _, hcnt2, hkey2, _⟩ := C16_encrypt w a _ c' h'
  rw [hkey] at hkey2
  obtain ⟨key, iv, hk⟩ := encrypt_key w a
  refine ⟨?_, key, iv, hk _ _ h, hk _ _ h'⟩
  unfold header
  rw [hcnt, hcnt2, Except.ok.inj hkey2]

end

/-! ## Runs over the toy primitives -/

section
attribute [local instance] toy
open Example
open Spec (Net Conv Step Steps Start header seenKeys)

/-- Alice writes, Bob answers, Alice reads the answer.  Here Alice makes a backup. -/
def backupRun : Option Net :=
  (convSend convCv conv0 true [104, 105]).bind fun n => (convDeliver convCv n false 0 (key 51)).bind fun n =>
    (convSend convCv n false [121, 111]).bind fun n => convDeliver convCv n true 0 (key 53)

/-- Alice writes again; Bob reads it and answers. -/
def afterBackup (n : Net) : Option Net :=
  (convSend convCv n true [104, 97]).bind fun n => (convDeliver convCv n false 1 (key 54)).bind fun n =>
    convSend convCv n false [111, 104]

/-- One round more: Alice reads the answer and writes under a new ratchet key; Bob reads it and answers. -/
def longAfter (n : Net) : Option Net :=
  (convDeliver convCv n true 1 (key 55)).bind fun n => (convSend convCv n true [104, 104]).bind fun n =>
    (convDeliver convCv n false 2 (key 56)).bind fun n => convSend convCv n false [122, 122]

theorem backupRun_steps {n : Net} (h : backupRun = some n) : Steps convCv conv0 n := by
  unfold backupRun at h
  simp only [Option.bind_eq_some_iff] at h
  obtain ⟨a1, h1, a2, h2, a3, h3, h4⟩ := h
  exact (((Steps.refl.step (convSend_step h1)).step (convDeliver_step h2)).step (convSend_step h3)).step (convDeliver_step h4)

theorem afterBackup_steps {n m : Net} (h : afterBackup n = some m) : Steps convCv n m := by
  unfold afterBackup at h
  simp only [Option.bind_eq_some_iff] at h
  obtain ⟨a1, h1, a2, h2, h3⟩ := h
  exact ((Steps.refl.step (convSend_step h1)).step (convDeliver_step h2)).step (convSend_step h3)

theorem longAfter_steps {n m : Net} (h : longAfter n = some m) : Steps convCv n m := by
  unfold longAfter at h
  simp only [Option.bind_eq_some_iff] at h
  obtain ⟨a1, h1, a2, h2, a3, h3, h4⟩ := h
  exact (((Steps.refl.step (convDeliver_step h1)).step (convSend_step h2)).step (convDeliver_step h3)).step (convSend_step h4)

/-- The hypotheses of `C92_healed`: Bob's last message is under a ratchet key new to the backup, in answer to a key in it. -/
def healedCheck (n1 m : Net) : Bool :=
  ((m.log false).all fun h => decide (h.1 ∈ n1.keys)) && decide (toy.genPub (toy.genPriv (key 57)) ∉ m.keys) &&
    (m.sent false)[1]?.any fun x => decide ((header x.1).1 ∉ seenKeys (convCv.start true) (n1.log true)) &&
      decide ((header x.1).2 ≤ 2000)

theorem backup_healed_check : (backupRun.any fun n1 => (afterBackup n1).any fun m => healedCheck n1 m) = true := by decide +kernel

/-- The hypotheses of `C92_fork`: Alice, restored, writes something else with the number of a message that Bob has accepted; what
Bob has not accepted, he accepts. -/
def forkCheck (n1 m : Net) : Bool :=
  (convSend convCv n1 true [110, 111]).any fun n2 => (convSend convCv n2 true [110, 112]).any fun n =>
    ((n.sent true)[1]?.any fun x => decide ((header x.1).1 ∈ n1.keys) && decide (header x.1 ∈ m.log false) &&
      decide (m.remembered convCv false (header x.1))) &&
    ((n.sent true)[2]?.any fun x => decide ((header x.1).1 ∈ n1.keys) && decide (header x.1 ∉ m.log false) &&
      decide (m.inLimits convCv false (header x.1)))

theorem backup_fork_check : (backupRun.any fun n1 => (afterBackup n1).any fun m => forkCheck n1 m) = true := by decide +kernel

/-- The restored side refuses the peer's last message, and the message is within the limits. -/
def stuckCheck (n1 m : Net) : Bool :=
  (m.sent false)[2]?.any fun x =>
    (match (Spec.receive (n1.world true) (convCv.addr true) x.1.getType x.1.serialize (key 57) fun _ => key 58).result with
      | .error .invalidMessage => true
      | _ => false) &&
    decide (n1.inLimits convCv true (header x.1)) && decide (toy.genPub (toy.genPriv (key 57)) ∉ m.keys)

theorem backup_stuck_check : (backupRun.any fun n1 => (afterBackup n1).any fun m => (longAfter m).any fun m' => stuckCheck n1 m') = true := by
  decide +kernel

/-- **C92**, the condition matters.  When the peer has seen a ratchet key that was generated after the backup, the restored side
may refuse all it writes from then on: here the peer's next message, although nothing was lost and no limit is reached. -/
theorem C92_stuck : ∃ n1 m, Start convCv conv0 ∧ Steps convCv conv0 n1 ∧ Steps convCv n1 m ∧
    (∃ h ∈ m.log false, h.1 ∉ n1.keys) ∧ stuckCheck n1 m = true := by
  have h := backup_stuck_check
  cases h1 : backupRun with
  | none => rw [h1] at h; cases h
  | some n1 =>
    cases h2 : afterBackup n1 with
    | none => simp [h1, h2] at h
    | some m =>
      cases h3 : longAfter m with
      | none => simp [h1, h2, h3] at h
      | some m' =>
        have hk : (backupRun.any fun n1 => (afterBackup n1).any fun m => (longAfter m).any fun m' =>
            (m'.log false).any fun h => decide (h.1 ∉ n1.keys)) = true := by decide +kernel
        simp only [h1, h2, h3, Option.any_some] at h hk
        rw [List.any_eq_true] at hk
        obtain ⟨x, hx, hx'⟩ := hk
        exact ⟨n1, m', conv_start, backupRun_steps h1, conv_steps_trans (afterBackup_steps h2) (longAfter_steps h3),
          ⟨x, hx, by simpa using hx'⟩, h⟩

/-- Both continuations exist. -/
example : ∃ n1 m, Start convCv conv0 ∧ Steps convCv conv0 n1 ∧ Steps convCv n1 m ∧ healedCheck n1 m = true ∧ forkCheck n1 m = true := by
  have h := backup_healed_check
  have h' := backup_fork_check
  cases h1 : backupRun with
  | none => rw [h1] at h; cases h
  | some n1 =>
    cases h2 : afterBackup n1 with
    | none => simp [h1, h2] at h
    | some m =>
      simp only [h1, h2, Option.any_some] at h h'
      exact ⟨n1, m, conv_start, backupRun_steps h1, afterBackup_steps h2, h, h'⟩

/-- The hypothesis of `C92_unheard`: Alice has written again since the backup, and Bob, who has not read it, too. -/
example : ∃ n1 m, Start convCv conv0 ∧ Steps convCv conv0 n1 ∧ Steps convCv n1 m ∧ m.sent true ≠ n1.sent true ∧
    m.sent false ≠ n1.sent false ∧ ∀ i ∈ m.accepted false, i < (n1.sent true).length := by
  have h : (backupRun.any fun n1 => ((convSend convCv n1 true [104, 97]).bind fun n => convSend convCv n false [111]).any fun m =>
      decide ((m.sent true).length ≠ (n1.sent true).length) && decide ((m.sent false).length ≠ (n1.sent false).length) &&
      (m.accepted false).all fun i => decide (i < (n1.sent true).length)) = true := by decide +kernel
  cases h1 : backupRun with
  | none => rw [h1] at h; cases h
  | some n1 =>
    cases h2 : (convSend convCv n1 true [104, 97]).bind fun n => convSend convCv n false [111] with
    | none => simp [h1, h2] at h
    | some m =>
      simp only [h1, h2, Option.any_some, Bool.and_eq_true, decide_eq_true_eq, List.all_eq_true] at h
      obtain ⟨a, h3, h4⟩ := Option.bind_eq_some_iff.1 h2
      exact ⟨n1, m, conv_start, backupRun_steps h1, (Steps.refl.step (convSend_step h3)).step (convSend_step h4),
        fun e => h.1.1 (by rw [e]), fun e => h.1.2 (by rw [e]), h.2⟩

end
end Axolotl
