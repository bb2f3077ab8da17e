import Verif.Proofs.Secrecy
import Verif.Spec.Restore

/-! Two continuations of one moment of a conversation. -/

namespace Axolotl
section
variable [C : Crypto]
open SessionState
open Spec (GoodPair Net Conv Step Steps Start header nextCounter seenKeys retained)

variable {v : Kdf}

/-! ## What steps keep -/

theorem steps_sent {cv : Conv} {n m : Net} (h : Steps cv n m) (a : Bool) : n.sent a <+: m.sent a := by
  induction h with
  | refl => exact List.prefix_refl _
  | step _ hs ih =>
    cases hs with
    | @send b pt c h1 h2 h3 =>
      refine ih.trans ?_
      by_cases hab : a = b
      · subst hab; simp only [upd_same]; exact List.prefix_append ..
      · simp only [upd_other _ _ hab]; exact List.prefix_refl _
    | deliver => exact ih
    | other => exact ih

theorem conv_identity {cv : Conv} {n m : Net} (h : Steps cv n m) (a : Bool) :
    (m.world a).identityKeyPair = (n.world a).identityKeyPair := by
  induction h with
  | refl => rfl
  | step _ hs ih =>
    rw [← ih]
    cases hs with
    | @send b pt c h1 h2 h3 =>
      by_cases hab : a = b
      · subst hab; simp only [upd_same]; exact final_identity _ _
      · simp only [upd_other _ _ hab]
    | @deliver b i c pt seed seeds h1 h2 h3 h4 h5 =>
      by_cases hab : a = b
      · subst hab; simp only [upd_same]; exact final_identity _ _
      · simp only [upd_other _ _ hab]
    | @other b call h1 h2 h3 =>
      by_cases hab : a = b
      · subst hab; simp only [upd_same]; exact (C30_isolation _ call).2.2.2.1
      · simp only [upd_other _ _ hab]

theorem conv_steps_trans {cv : Conv} {n m p : Net} (h : Steps cv n m) (h' : Steps cv m p) : Steps cv n p := by
  induction h' with
  | refl => exact h
  | step _ hs ih => exact ih.step hs

/-! ## Reading a message of the conversation that need not have been sent in it -/

theorem GInv.reads {cv : Conv} {ids : Bool → ECPub} {net : Net} {g : Ghost v} (h : GInv cv ids net g) (hC : C.Lawful) {b : Bool}
    {t k : Nat} {pt : Bytes} {m : WhisperMessage} {s : SessionState}
    (hp : Party (ids b) (ids !b) (g.E (g.e b)) (g.n b) (last5 (g.full b)) s) (h2 : 2 * t + off b ≤ g.top)
    (h4 : Genuine (ids !b) (ids b) (g.E (2 * t + off b)) k pt m) {seed : Bytes} (hseed : seed.length = 32) :
    (((g.E (2 * t + off b)).pub, k) ∉ net.log b → net.inLimits cv b ((g.E (2 * t + off b)).pub, k) →
      ∃ s', SessionCipher.decryptWithSessionState s m seed = .ok (pt, s')) ∧
    (((g.E (2 * t + off b)).pub, k) ∈ net.log b → net.remembered cv b ((g.E (2 * t + off b)).pub, k) →
      SessionCipher.decryptWithSessionState s m seed = .error .duplicateMessage) := by
  have h1 : t ≤ (g.full b).length := by
    have := h.e_succ b
    have := h.hi b
    omega
  obtain ⟨o1, o2⟩ := h.last5_ok hC b
  constructor
  · intro hlog hl
    obtain ⟨hl1, hl2⟩ := hl
    simp only at hl1 hl2
    by_cases ht : t < (g.full b).length
    · have hpl := h.place ht (hl1 (h.in_seen ht))
      have hr := List.getElem?_eq_getElem ht
      have hmem : (g.full b)[t] ∈ g.full b := List.getElem_mem ht
      have hep := h.ep b t _ hr
      have hidx := h.index b _ hmem
      have hmis := h.missing b _ hmem
      generalize (g.full b)[t] = r at *
      have hr5 : (last5 (g.full b))[t - ((g.full b).length - 5)]? = some r := by rw [last5_get _ _ hpl]; exact hr
      rw [← hep] at hlog hl2 h4
      by_cases hk : k < r.index
      · obtain ⟨s', e1, _⟩ := recv_skipped hC.hmac_len (h.idsLen b) (h.idsLen !b) hp o1 o2 hr5 h4 ((hmis k).2 ⟨hk, hlog⟩) hk seed
        exact ⟨s', e1⟩
      · obtain ⟨s', e1, _⟩ := recv_ahead hC.hmac_len (h.idsLen b) (h.idsLen !b) hp o1 o2 hr5 h4 (by omega)
          (by rw [hidx]; exact hl2) seed
        exact ⟨s', e1⟩
    · obtain rfl : t = (g.full b).length := by omega
      have hesucc := h.e_succ b
      have htop : g.top = 2 * (g.full b).length + off b := by
        have := h.hi b
        omega
      have hns := h.not_in_seen h2
      rw [← htop] at hns h4 hl2
      have h0 : nextCounter (net.log b) (g.E g.top).pub = 0 := nextCounter_absent fun x hx => hns (mem_log_seen hx)
      have hgE := h.good g.top (Nat.le_refl _)
      have hnx := h.next (g.e b) (by omega)
      rw [show g.e b + 1 = g.top by omega] at hnx
      obtain ⟨s', d1, _⟩ := recv_new hC (h.idsLen b) (h.idsLen !b) hp (h.nlt b) (h.good _ (h.lo b)) hgE o1
        (last5_length _)
        (by
          intro r hr e
          apply hns
          rw [h.seen b]
          exact List.mem_map.2 ⟨r, last5_sub hr, e⟩)
        hnx h4 (by omega) (z := nextEpoch (g.E g.top) seed) rfl rfl (nextEpoch_next hC hgE hseed)
      exact ⟨s', d1⟩
  · intro hlog hl
    have ht : t < (g.full b).length := by
      refine Nat.lt_of_le_of_ne h1 ?_
      rintro rfl
      exact h.not_in_seen h2 (mem_log_seen hlog)
    have hpl := h.place ht hl
    have hr := List.getElem?_eq_getElem ht
    have hmem : (g.full b)[t] ∈ g.full b := List.getElem_mem ht
    have hep := h.ep b t _ hr
    refine recv_duplicate hp o1 o2 (by rw [last5_get _ _ hpl]; exact hr) (by rw [hep]; exact h4) ?_ ?_ seed
    · rw [h.missing b _ hmem, hep]
      exact fun x => x.2 hlog
    · rw [h.index b _ hmem, hep]
      exact mem_log_lt hlog

/-! ## The same ratchet keys on both branches -/

omit C in
theorem seen_from {k : ECPub} {start : List ECPub} {log : List (ECPub × Nat)} (h : k ∈ seenKeys start log) :
    k ∈ start ∨ ∃ x, (k, x) ∈ log := by
  unfold seenKeys at h
  induction log generalizing start with
  | nil => exact Or.inl h
  | cons a log ih =>
    rw [List.foldl_cons] at h
    rcases ih h with h | ⟨x, h⟩
    · split at h
      · exact Or.inl h
      · rcases List.mem_append.1 h with h | h
        · exact Or.inl h
        · rw [List.mem_singleton.1 h]
          exact Or.inr ⟨a.2, List.mem_cons_self ..⟩
    · exact Or.inr ⟨x, List.mem_cons_of_mem _ h⟩

omit C in
theorem start_seen {k : ECPub} {start : List ECPub} {log : List (ECPub × Nat)} (h : k ∈ start) : k ∈ seenKeys start log := by
  unfold seenKeys
  induction log generalizing start with
  | nil => exact h
  | cons a log ih =>
    rw [List.foldl_cons]
    apply ih
    split
    · exact h
    · exact List.mem_append_left _ h

omit C in
/-- A ratchet key that existed at the fork is the same in both continuations. -/
theorem Ghost.Extends.old {keys : List ECPub} {g g' : Ghost v} (h : g.Extends keys g') {j : Nat} (hj : j ≤ g'.top)
    (hk : (g'.E j).pub ∈ keys) : j ≤ g.top := by
  by_cases hle : j ≤ g.top
  · exact hle
  · exact absurd hk (h.fresh j (by omega) hj)

end
end Axolotl
