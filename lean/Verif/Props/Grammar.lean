import Verif.Spec.Grammar
import Verif.Props.Messages
import Verif.Props.Ratchet

/-! # C60: which bytes are messages -/

namespace Axolotl
open Wire Spec

/-! ## The protobuf grammar -/

theorem decVarintF_iff (f : Nat) (bs : Bytes) (v : Nat) (rest : Bytes) :
    decVarintF f bs = some (v, rest) ↔ ∃ p, bs = p ++ rest ∧ p.length ≤ f ∧ Varint p v := by
  constructor
  · intro h
    induction f generalizing bs v with
    | zero => cases h
    | succ f ih =>
      cases bs with
      | nil => cases h
      | cons b bs =>
        unfold decVarintF at h
        split at h
        · rename_i hb
          obtain ⟨rfl, rfl⟩ := Prod.mk.inj (Option.some.inj h)
          exact ⟨[b], rfl, by simp, .last hb⟩
        · rename_i hb
          cases hd : decVarintF f bs with
          | none => rw [hd] at h; cases h
          | some p =>
            rw [hd] at h
            obtain ⟨rfl, rfl⟩ := Prod.mk.inj (Option.some.inj h)
            obtain ⟨q, rfl, hl, hq⟩ := ih bs p.1 hd
            exact ⟨b :: q, rfl, by simpa using hl, .more (by omega) hq⟩
  · rintro ⟨p, rfl, hl, hp⟩
    induction hp generalizing f with
    | @last b hb =>
      cases f with
      | zero => simp at hl
      | succ f => simp [decVarintF, hb]
    | @more b p n hb _ ih =>
      cases f with
      | zero => simp at hl
      | succ f =>
        have := ih f (by simpa using hl)
        show decVarintF (f + 1) (b :: (p ++ rest)) = _
        unfold decVarintF
        rw [if_neg (by omega), this]

theorem decVarint_iff (bs : Bytes) (v : Nat) (rest : Bytes) :
    decVarint bs = some (v, rest) ↔ ∃ p, bs = p ++ rest ∧ Number p v := by
  unfold decVarint
  constructor
  · intro h
    obtain ⟨q, h1, h2⟩ := Option.map_eq_some_iff.1 h
    obtain ⟨rfl, rfl⟩ := Prod.mk.inj h2
    obtain ⟨p, e, hl, hp⟩ := (decVarintF_iff 10 bs q.1 q.2).1 h1
    exact ⟨p, e, hl, _, hp, rfl⟩
  · rintro ⟨p, e, hl, k, hk, rfl⟩
    rw [(decVarintF_iff 10 bs k rest).2 ⟨p, e, hl, hk⟩]
    rfl

theorem decTag_iff (bs : Bytes) (n wt : Nat) (rest : Bytes) :
    decTag bs = some ((n, wt), rest) ↔ ∃ p, bs = p ++ rest ∧ Tag p n wt := by
  unfold decTag
  constructor
  · intro h
    cases hd : decVarintF 10 bs with
    | none => rw [hd] at h; cases h
    | some q =>
      rw [hd] at h
      obtain ⟨t, r⟩ := q
      simp only at h
      split at h
      · cases h
      · rename_i hn
        obtain ⟨h1, rfl⟩ := Prod.mk.inj (Option.some.inj h)
        obtain ⟨rfl, rfl⟩ := Prod.mk.inj h1
        obtain ⟨p, e, hl, hp⟩ := (decVarintF_iff 10 bs t r).1 hd
        refine ⟨p, e, hl, ?_, by omega, by omega, by omega⟩
        rw [show t / 8 * 8 + t % 8 = t by omega]
        exact hp
  · rintro ⟨p, e, hl, hv, h1, h2, h3⟩
    rw [(decVarintF_iff 10 bs _ rest).2 ⟨p, e, hl, hv⟩]
    simp only
    rw [if_neg (by omega), show (n * 8 + wt) / 8 = n by omega, show (n * 8 + wt) % 8 = wt by omega]

theorem decRaw_iff (n : Nat) (bs a rest : Bytes) : decRaw n bs = some (a, rest) ↔ bs = a ++ rest ∧ a.length = n := by
  unfold decRaw
  constructor
  · intro h
    split at h
    · obtain ⟨rfl, rfl⟩ := Prod.mk.inj (Option.some.inj h)
      exact ⟨(List.take_append_drop ..).symm, by rw [List.length_take]; omega⟩
    · cases h
  · rintro ⟨rfl, rfl⟩
    rw [if_pos (by simp), List.take_left, List.drop_left]

theorem tag_pos {p : Bytes} {n wt : Nat} (h : Tag p n wt) : 0 < p.length := by
  obtain ⟨_, h, _⟩ := h
  generalize n * 8 + wt = k at h
  cases h <;> simp

theorem skipGroup_sound (f : Nat) : ∀ (num : Nat) (bs rest : Bytes), skipGroup f num bs = some rest →
    ∃ p, bs = p ++ rest ∧ GroupBody num p := by
  induction f with
  | zero => intro num bs rest h; cases h
  | succ f ih =>
    intro num bs rest h
    unfold skipGroup at h
    cases ht : decTag bs with
    | none => rw [ht] at h; cases h
    | some q =>
      obtain ⟨⟨n, wt⟩, r⟩ := q
      rw [ht] at h
      simp only at h
      obtain ⟨t, rfl, htag⟩ := (decTag_iff _ _ _ _).1 ht
      split at h
      · rename_i hw
        subst hw
        split at h
        · rename_i hn
          subst hn
          cases h
          exact ⟨t, rfl, .close htag⟩
        · cases h
      · split at h
        · rename_i hw
          subst hw
          cases hg : skipGroup f n r with
          | none => rw [hg] at h; cases h
          | some r' =>
            rw [hg] at h
            obtain ⟨b, rfl, hb⟩ := ih _ _ _ hg
            obtain ⟨c, rfl, hc⟩ := ih _ _ _ h
            exact ⟨t ++ (b ++ c), by simp, .group htag hb hc⟩
        · split at h
          · rename_i hw
            subst hw
            cases hg : decVarint r with
            | none => rw [hg] at h; cases h
            | some r' =>
              obtain ⟨v, r'⟩ := r'
              rw [hg] at h
              obtain ⟨b, rfl, hb⟩ := (decVarint_iff _ _ _).1 hg
              obtain ⟨c, rfl, hc⟩ := ih _ _ _ h
              exact ⟨(t ++ b) ++ c, by simp, .plain (.varint htag hb) hc⟩
          · split at h
            · rename_i hw
              subst hw
              cases hg : decRaw 8 r with
              | none => rw [hg] at h; cases h
              | some r' =>
                obtain ⟨v, r'⟩ := r'
                rw [hg] at h
                obtain ⟨rfl, hb⟩ := (decRaw_iff _ _ _ _).1 hg
                obtain ⟨c, rfl, hc⟩ := ih _ _ _ h
                exact ⟨(t ++ v) ++ c, by simp, .plain (.i64 htag hb) hc⟩
            · split at h
              · rename_i hw
                subst hw
                cases hg : decRaw 4 r with
                | none => rw [hg] at h; cases h
                | some r' =>
                  obtain ⟨v, r'⟩ := r'
                  rw [hg] at h
                  obtain ⟨rfl, hb⟩ := (decRaw_iff _ _ _ _).1 hg
                  obtain ⟨c, rfl, hc⟩ := ih _ _ _ h
                  exact ⟨(t ++ v) ++ c, by simp, .plain (.i32 htag hb) hc⟩
              · split at h
                · rename_i hw
                  subst hw
                  cases hg : decVarint r with
                  | none => rw [hg] at h; cases h
                  | some r' =>
                    obtain ⟨l, r'⟩ := r'
                    rw [hg] at h
                    simp only at h
                    obtain ⟨b, rfl, hb⟩ := (decVarint_iff _ _ _).1 hg
                    cases hr : decRaw l r' with
                    | none => rw [hr] at h; cases h
                    | some q =>
                      obtain ⟨v, r''⟩ := q
                      rw [hr] at h
                      obtain ⟨rfl, rfl⟩ := (decRaw_iff _ _ _ _).1 hr
                      obtain ⟨c, rfl, hc⟩ := ih _ _ _ h
                      exact ⟨(t ++ (b ++ v)) ++ c, by simp, .plain (.len htag hb) hc⟩
                · cases h

/-- The parser on a plain field. -/
theorem plain_dec {s : Bytes} {f : Field} (h : Plain s f) (rest : Bytes) : decField (s ++ rest) = some (f, rest) := by
  cases h with
  | @varint t v num n ht hv =>
    unfold decField
    rw [(decTag_iff _ _ _ _).2 ⟨t, (List.append_assoc ..), ht⟩]
    simp only [if_true]
    rw [(decVarint_iff _ _ _).2 ⟨v, rfl, hv⟩]
    rfl
  | @i64 t b num ht hb =>
    unfold decField
    rw [(decTag_iff _ _ _ _).2 ⟨t, (List.append_assoc ..), ht⟩]
    simp only [Nat.reduceEqDiff, if_false, if_true, (by decide : ¬ (1 = 0))]
    rw [(decRaw_iff _ _ _ _).2 ⟨rfl, hb⟩]
    rfl
  | @len t l b num ht hl =>
    unfold decField
    rw [(decTag_iff _ _ _ _).2 ⟨t, (List.append_assoc ..), ht⟩]
    simp only [Nat.reduceEqDiff, if_false, if_true, (by decide : ¬ (2 = 0))]
    rw [(decVarint_iff _ _ _).2 ⟨l, (List.append_assoc ..), hl⟩]
    simp only
    rw [(decRaw_iff _ _ _ _).2 ⟨rfl, rfl⟩]
    rfl
  | @i32 t b num ht hb =>
    unfold decField
    rw [(decTag_iff _ _ _ _).2 ⟨t, (List.append_assoc ..), ht⟩]
    simp only [Nat.reduceEqDiff, if_false, if_true, (by decide : ¬ (5 = 0))]
    rw [(decRaw_iff _ _ _ _).2 ⟨rfl, hb⟩]
    rfl

theorem plain_pos {s : Bytes} {f : Field} (h : Plain s f) : 0 < s.length := by
  cases h with
  | varint ht _ | i64 ht _ | len ht _ | i32 ht _ => have := tag_pos ht; simp; omega

theorem skipGroup_complete {num : Nat} {p : Bytes} (h : GroupBody num p) :
    ∀ (f : Nat) (rest : Bytes), p.length ≤ f → skipGroup f num (p ++ rest) = some rest := by
  induction h with
  | @close num t ht =>
    intro f rest hf
    have := tag_pos ht
    cases f with
    | zero => omega
    | succ f =>
      unfold skipGroup
      rw [(decTag_iff _ _ _ _).2 ⟨t, rfl, ht⟩]
      simp
  | @plain num s r fd hs _ ih =>
    intro f rest hf
    have hpos := plain_pos hs
    rw [List.length_append] at hf
    cases f with
    | zero => omega
    | succ f =>
      have hi := ih f rest (by omega)
      cases hs with
      | @varint t v num n ht hv =>
        unfold skipGroup
        rw [(decTag_iff _ _ _ _).2 ⟨t, by simp only [List.append_assoc]; rfl, ht⟩]
        simp only [(by decide : ¬ (0 = 4)), (by decide : ¬ (0 = 3)), if_false, if_true]
        rw [(decVarint_iff _ _ _).2 ⟨v, rfl, hv⟩]
        exact hi
      | @i64 t b num ht hb =>
        unfold skipGroup
        rw [(decTag_iff _ _ _ _).2 ⟨t, by simp only [List.append_assoc]; rfl, ht⟩]
        simp only [(by decide : ¬ (1 = 4)), (by decide : ¬ (1 = 3)), (by decide : ¬ (1 = 0)), if_false, if_true]
        rw [(decRaw_iff _ _ _ _).2 ⟨rfl, hb⟩]
        exact hi
      | @len t l b num ht hl =>
        unfold skipGroup
        rw [(decTag_iff _ _ _ _).2 ⟨t, by simp only [List.append_assoc]; rfl, ht⟩]
        simp only [(by decide : ¬ (2 = 4)), (by decide : ¬ (2 = 3)), (by decide : ¬ (2 = 0)), (by decide : ¬ (2 = 1)),
          (by decide : ¬ (2 = 5)), if_false, if_true]
        rw [(decVarint_iff _ _ _).2 ⟨l, rfl, hl⟩]
        simp only
        rw [(decRaw_iff _ _ _ _).2 ⟨rfl, rfl⟩]
        exact hi
      | @i32 t b num ht hb =>
        unfold skipGroup
        rw [(decTag_iff _ _ _ _).2 ⟨t, by simp only [List.append_assoc]; rfl, ht⟩]
        simp only [(by decide : ¬ (5 = 4)), (by decide : ¬ (5 = 3)), (by decide : ¬ (5 = 0)), (by decide : ¬ (5 = 1)),
          if_false, if_true]
        rw [(decRaw_iff _ _ _ _).2 ⟨rfl, hb⟩]
        exact hi
  | @group num n t b r ht _ _ ih1 ih2 =>
    intro f rest hf
    have hpos := tag_pos ht
    rw [List.length_append, List.length_append] at hf
    cases f with
    | zero => omega
    | succ f =>
      unfold skipGroup
      rw [(decTag_iff _ _ _ _).2 ⟨t, by simp only [List.append_assoc]; rfl, ht⟩]
      simp only [(by decide : ¬ (3 = 4)), if_false, if_true]
      rw [ih1 f (r ++ rest) (by omega)]
      exact ih2 f rest (by omega)

theorem item_pos {s : Bytes} {f : Field} (h : Item s f) : 0 < s.length := by
  cases h with
  | plain h => exact plain_pos h
  | group h _ => have := tag_pos h; simp; omega

theorem decField_iff (bs : Bytes) (fd : Field) (rest : Bytes) :
    decField bs = some (fd, rest) ↔ ∃ p, bs = p ++ rest ∧ Item p fd := by
  constructor
  · intro h
    unfold decField at h
    cases ht : decTag bs with
    | none => rw [ht] at h; cases h
    | some q =>
      obtain ⟨⟨n, wt⟩, r⟩ := q
      rw [ht] at h
      simp only at h
      obtain ⟨t, rfl, htag⟩ := (decTag_iff _ _ _ _).1 ht
      split at h
      · rename_i hw
        subst hw
        obtain ⟨⟨v, r'⟩, h1, h2⟩ := Option.map_eq_some_iff.1 h
        obtain ⟨rfl, rfl⟩ := Prod.mk.inj h2
        obtain ⟨b, rfl, hb⟩ := (decVarint_iff _ _ _).1 h1
        exact ⟨t ++ b, by simp, .plain (.varint htag hb)⟩
      · split at h
        · rename_i hw
          subst hw
          obtain ⟨⟨v, r'⟩, h1, h2⟩ := Option.map_eq_some_iff.1 h
          obtain ⟨rfl, rfl⟩ := Prod.mk.inj h2
          obtain ⟨rfl, hb⟩ := (decRaw_iff _ _ _ _).1 h1
          exact ⟨t ++ v, by simp, .plain (.i64 htag hb)⟩
        · split at h
          · rename_i hw
            subst hw
            cases hg : decVarint r with
            | none => rw [hg] at h; cases h
            | some q =>
              obtain ⟨l, r'⟩ := q
              rw [hg] at h
              simp only at h
              obtain ⟨b, rfl, hb⟩ := (decVarint_iff _ _ _).1 hg
              obtain ⟨⟨v, r''⟩, h1, h2⟩ := Option.map_eq_some_iff.1 h
              obtain ⟨rfl, rfl⟩ := Prod.mk.inj h2
              obtain ⟨rfl, rfl⟩ := (decRaw_iff _ _ _ _).1 h1
              exact ⟨t ++ (b ++ v), by simp, .plain (.len htag hb)⟩
          · split at h
            · rename_i hw
              subst hw
              obtain ⟨r', h1, h2⟩ := Option.map_eq_some_iff.1 h
              obtain ⟨rfl, rfl⟩ := Prod.mk.inj h2
              obtain ⟨b, rfl, hb⟩ := skipGroup_sound _ _ _ _ h1
              exact ⟨t ++ b, by simp, .group htag hb⟩
            · split at h
              · rename_i hw
                subst hw
                obtain ⟨⟨v, r'⟩, h1, h2⟩ := Option.map_eq_some_iff.1 h
                obtain ⟨rfl, rfl⟩ := Prod.mk.inj h2
                obtain ⟨rfl, hb⟩ := (decRaw_iff _ _ _ _).1 h1
                exact ⟨t ++ v, by simp, .plain (.i32 htag hb)⟩
              · cases h
  · rintro ⟨p, rfl, h⟩
    cases h with
    | plain h => exact plain_dec h rest
    | @group num t b ht hb =>
      unfold decField
      rw [(decTag_iff _ _ _ _).2 ⟨t, (List.append_assoc ..), ht⟩]
      simp only [(by decide : ¬ (3 = 0)), (by decide : ¬ (3 = 1)), (by decide : ¬ (3 = 2)), if_false, if_true]
      rw [skipGroup_complete hb _ rest (by simp; omega)]
      rfl

theorem decFieldsF_sound (f : Nat) : ∀ (bs : Bytes) (fs : List Field), decFieldsF f bs = some fs → Items bs fs := by
  induction f with
  | zero =>
    intro bs fs h
    cases bs with
    | nil => cases h; exact .nil
    | cons => cases h
  | succ f ih =>
    intro bs fs h
    cases bs with
    | nil => cases h; exact .nil
    | cons b bs =>
      unfold decFieldsF at h
      cases hd : decField (b :: bs) with
      | none => rw [hd] at h; cases h
      | some q =>
        obtain ⟨fd, rest⟩ := q
        rw [hd] at h
        obtain ⟨l, h1, rfl⟩ := Option.map_eq_some_iff.1 h
        obtain ⟨p, hp, hi⟩ := (decField_iff _ _ _).1 hd
        rw [hp]
        exact .cons hi (ih _ _ h1)

theorem decFieldsF_complete {bs : Bytes} {fs : List Field} (h : Items bs fs) : ∀ f, bs.length ≤ f → decFieldsF f bs = some fs := by
  induction h with
  | nil => intro f _; cases f <;> rfl
  | @cons s rest fd fs hi _ ih =>
    intro f hf
    have hpos := item_pos hi
    rw [List.length_append] at hf
    cases f with
    | zero => omega
    | succ f =>
      cases hs : s ++ rest with
      | nil => rw [List.append_eq_nil_iff.1 hs |>.1] at hpos; simp at hpos
      | cons b bs =>
        unfold decFieldsF
        rw [(decField_iff _ _ _).2 ⟨s, hs.symm, hi⟩]
        simp only
        rw [ih f (by omega)]
        rfl

theorem decFields_iff (bs : Bytes) (fs : List Field) : decFields bs = some fs ↔ Items bs fs :=
  ⟨decFieldsF_sound _ bs fs, fun h => decFieldsF_complete h _ (Nat.le_refl _)⟩

theorem decFields_none (bs : Bytes) : decFields bs = none ↔ ∀ fs, ¬ Items bs fs := by
  constructor
  · intro h fs hi
    rw [(decFields_iff bs fs).2 hi] at h
    cases h
  · intro h
    cases hd : decFields bs with
    | none => rfl
    | some fs => exact absurd ((decFields_iff bs fs).1 hd) (h fs)


/-! ## Field values -/

theorem lastBytes_get {num : Nat} {fs : List Field} {v : Option Bytes} (h : LastBytes num fs v) : getBytes num fs = v := by
  unfold getBytes
  cases v with
  | none =>
    have : allLen num fs = [] := by
      unfold allLen
      rw [List.filterMap_eq_nil_iff]
      rintro ⟨n, w⟩ hm
      cases w with
      | len b =>
        simp only
        rw [if_neg]
        rintro rfl
        exact h b hm
      | _ => rfl
    rw [this]
    rfl
  | some b =>
    obtain ⟨x, y, rfl, hy⟩ := h
    have : allLen num y = [] := by
      unfold allLen
      rw [List.filterMap_eq_nil_iff]
      rintro ⟨n, w⟩ hm
      cases w with
      | len b =>
        simp only
        rw [if_neg]
        rintro rfl
        exact hy b hm
      | _ => rfl
    unfold allLen at this ⊢
    rw [List.filterMap_append, List.filterMap_cons, this]
    simp

theorem lastNumber_get {num : Nat} {fs : List Field} {v : Option Nat} (h : LastNumber num fs v) : getU32 num fs = v := by
  unfold getU32
  cases v with
  | none =>
    have : allVarint num fs = [] := by
      unfold allVarint
      rw [List.filterMap_eq_nil_iff]
      rintro ⟨n, w⟩ hm
      cases w with
      | varint b =>
        simp only
        rw [if_neg]
        rintro rfl
        exact h b hm
      | _ => rfl
    rw [this]
    rfl
  | some b =>
    obtain ⟨k, x, y, rfl, hy, rfl⟩ := h
    have : allVarint num y = [] := by
      unfold allVarint
      rw [List.filterMap_eq_nil_iff]
      rintro ⟨n, w⟩ hm
      cases w with
      | varint b =>
        simp only
        rw [if_neg]
        rintro rfl
        exact hy b hm
      | _ => rfl
    unfold allVarint at this ⊢
    rw [List.filterMap_append, List.filterMap_cons, this]
    simp

theorem lastBytes_exists (num : Nat) (fs : List Field) : ∃ v, LastBytes num fs v := by
  induction fs with
  | nil => exact ⟨none, fun b hb => by cases hb⟩
  | cons f fs ih =>
    obtain ⟨v, hv⟩ := ih
    cases v with
    | some b =>
      obtain ⟨x, y, rfl, hy⟩ := hv
      exact ⟨some b, f :: x, y, rfl, hy⟩
    | none =>
      by_cases h : ∃ b, f = ⟨num, .len b⟩
      · obtain ⟨b, rfl⟩ := h
        exact ⟨some b, [], fs, rfl, hv⟩
      · refine ⟨none, fun b hb => ?_⟩
        rcases List.mem_cons.1 hb with e | hb
        · exact h ⟨b, e.symm⟩
        · exact hv b hb

theorem lastNumber_exists (num : Nat) (fs : List Field) : ∃ v, LastNumber num fs v := by
  induction fs with
  | nil => exact ⟨none, fun b hb => by cases hb⟩
  | cons f fs ih =>
    obtain ⟨v, hv⟩ := ih
    cases v with
    | some b =>
      obtain ⟨k, x, y, rfl, hy, e⟩ := hv
      exact ⟨some b, k, f :: x, y, rfl, hy, e⟩
    | none =>
      by_cases h : ∃ b, f = ⟨num, .varint b⟩
      · obtain ⟨b, rfl⟩ := h
        exact ⟨some (b % 2 ^ 32), b, [], fs, rfl, hv, rfl⟩
      · refine ⟨none, fun b hb => ?_⟩
        rcases List.mem_cons.1 hb with e | hb
        · exact h ⟨b, e.symm⟩
        · exact hv b hb

theorem blank_iff (v : Option Bytes) : Blank v ↔ v.getD [] = [] := by
  cases v <;> simp [Blank]

theorem notKey_iff (v : Option Bytes) : NotKey v ↔ Curve.decodePoint (v.getD []) = .error .invalidKey := by
  cases v with
  | none => simp [NotKey, Curve.decodePoint]
  | some b =>
    cases b with
    | nil => simp [NotKey, Curve.decodePoint]
    | cons t x =>
      simp only [Option.getD_some, Curve.decodePoint, NotKey]
      by_cases h : t = Curve.DJB_TYPE
      · rw [if_pos h]
        constructor
        · rintro ⟨t', x', e, hn⟩
          cases e
          exact absurd h hn
        · intro e; cases e
      · rw [if_neg h]
        exact ⟨fun _ => rfl, fun _ => ⟨t, x, rfl, h⟩⟩

/-- Blank, not a key, or a key. -/
theorem key_cases (v : Option Bytes) : Blank v ∨ NotKey v ∨ ∃ k, KeyOf v k := by
  cases v with
  | none => exact .inl (.inl rfl)
  | some b =>
    cases b with
    | nil => exact .inl (.inr rfl)
    | cons t x =>
      by_cases h : t = 5
      · exact .inr (.inr ⟨x.take 32, x, by rw [h], rfl⟩)
      · exact .inr (.inl ⟨t, x, rfl, h⟩)

theorem parse_items {α : Type} {o : List Field → Option α} {bs : Bytes} {fs : List Field} (h : Items bs fs) :
    parseWith o bs = match o fs with | none => .error .decodeError | some a => .ok a := by
  unfold parseWith
  rw [(decFields_iff bs fs).2 h]
  rfl

theorem parse_notFields {α : Type} {o : List Field → Option α} {bs : Bytes} (h : ∀ fs, ¬ Items bs fs) :
    parseWith o bs = .error .decodeError := by
  unfold parseWith
  rw [(decFields_none bs).2 h]

theorem items_or (bs : Bytes) : (∃ fs, Items bs fs) ∨ ∀ fs, ¬ Items bs fs := by
  cases h : decFields bs with
  | none => exact .inr ((decFields_none bs).1 h)
  | some fs => exact .inl ⟨fs, (decFields_iff bs fs).1 h⟩

theorem middle_eq (v : UInt8) (bs : Bytes) (n : Nat) :
    (ByteUtil.split3 (v :: bs) 1 (((v :: bs).length : Int) - 1 - n) n).2.1 = middle n (v :: bs) := by
  show pySlice (v :: bs) 1 (1 + (((v :: bs).length : Int) - 1 - n)) = _
  rw [show (1 + (((v :: bs).length : Int) - 1 - n)) = ((v :: bs).length : Int) - n by omega]
  unfold pySlice middle
  have h1 : pyIdx (v :: bs).length 1 = 1 := by
    unfold pyIdx
    rw [if_neg (by decide)]
    show min 1 (bs.length + 1) = 1
    omega
  rw [h1]
  by_cases h : n ≤ (v :: bs).length
  · rw [if_pos h]
    congr 2
    unfold pyIdx
    rw [if_neg (by omega)]
    omega
  · rw [if_neg h]
    congr 2
    unfold pyIdx
    rw [if_pos (by omega)]
    omega

/-! ## `WhisperMessage` -/

theorem whisper_cons (v : UInt8) (bs : Bytes) :
    WhisperMessage.parse (v :: bs) = WhisperMessage.wrapInvalidKey (
      if v.toNat / 16 ≤ 1 then .error .legacyMessage
      else if v.toNat / 16 > 3 then .error .invalidMessage
      else parseWith WhisperMessageP.ofFields (middle 8 (v :: bs)) >>= fun m =>
        if m.ciphertext.getD [] = [] ∨ m.ratchetKey.getD [] = [] then .error .invalidMessage
        else Curve.decodePoint (m.ratchetKey.getD []) >>= fun rk =>
        .ok { serialized := v :: bs, senderRatchetKey := rk, messageVersion := v.toNat / 16
              counter := m.counter.getD 0, previousCounter := m.previousCounter.getD 0
              ciphertext := m.ciphertext.getD [] }) := by
  unfold WhisperMessage.parse
  rw [if_neg (by simp)]
  unfold WhisperMessage.parseBody
  simp only [split3_fst]
  have := middle_eq v bs 8
  rw [show ((8 : Nat) : Int) = (WhisperMessage.MAC_LENGTH : Int) from rfl] at this
  rw [this, highBits_eq]
  rfl

theorem whisper_sound {bs : Bytes} {r : Res WhisperMessage} (h : ReadsWhisper bs r) : WhisperMessage.parse bs = r := by
  cases h with
  | empty => rfl
  | legacy h => rw [whisper_cons, if_pos h]; rfl
  | future h => rw [whisper_cons, if_neg (by omega), if_pos h]; rfl
  | notFields h hi =>
    rw [whisper_cons, if_neg (by omega), if_neg (by omega), parse_notFields hi]
    rfl
  | incomplete h hi h1 h4 hb =>
    rw [whisper_cons, if_neg (by omega), if_neg (by omega), parse_items hi]
    simp only [WhisperMessageP.ofFields, ok_bind, lastBytes_get h1, lastBytes_get h4]
    rw [if_pos (by rw [← blank_iff, ← blank_iff]; exact hb.symm)]
    rfl
  | badKey h hi h1 h4 hb hk =>
    rw [whisper_cons, if_neg (by omega), if_neg (by omega), parse_items hi]
    simp only [WhisperMessageP.ofFields, ok_bind, lastBytes_get h1, lastBytes_get h4]
    have hk' := (notKey_iff _).1 hk
    rw [if_neg, hk']
    · rfl
    · rw [← blank_iff]
      rintro (hc | hc)
      · exact hb hc
      · rw [hc] at hk'; cases hk'
  | message h hi h1 h2 h3 h4 hb hk =>
    rw [whisper_cons, if_neg (by omega), if_neg (by omega), parse_items hi]
    simp only [WhisperMessageP.ofFields, ok_bind, lastBytes_get h1, lastBytes_get h4, lastNumber_get h2, lastNumber_get h3]
    have hk' := KeyOf_iff.1 hk
    rw [if_neg, hk']
    · rfl
    · rw [← blank_iff]
      rintro (hc | hc)
      · exact hb hc
      · rw [hc] at hk'; cases hk'

theorem whisper_total (bs : Bytes) : ∃ r, ReadsWhisper bs r := by
  cases bs with
  | nil => exact ⟨_, .empty⟩
  | cons v bs =>
    by_cases h1 : v.toNat / 16 ≤ 1
    · exact ⟨_, .legacy h1⟩
    by_cases h2 : 3 < v.toNat / 16
    · exact ⟨_, .future h2⟩
    have h : v.toNat / 16 = 2 ∨ v.toNat / 16 = 3 := by omega
    rcases items_or (middle 8 (v :: bs)) with ⟨fs, hi⟩ | hi
    · obtain ⟨key, g1⟩ := lastBytes_exists 1 fs
      obtain ⟨_, g2⟩ := lastNumber_exists 2 fs
      obtain ⟨_, g3⟩ := lastNumber_exists 3 fs
      obtain ⟨body, g4⟩ := lastBytes_exists 4 fs
      by_cases hb : Blank body
      · exact ⟨_, .incomplete h hi g1 g4 (.inr hb)⟩
      · rcases key_cases key with hk | hk | ⟨k, hk⟩
        · exact ⟨_, .incomplete h hi g1 g4 (.inl hk)⟩
        · exact ⟨_, .badKey h hi g1 g4 hb hk⟩
        · exact ⟨_, .message h hi g1 g2 g3 g4 hb hk⟩
    · exact ⟨_, .notFields h hi⟩

/-- C60 -/
theorem C60_whisper (bs : Bytes) (r : Res WhisperMessage) : ReadsWhisper bs r ↔ WhisperMessage.parse bs = r := by
  constructor
  · exact whisper_sound
  · rintro rfl
    obtain ⟨r, h⟩ := whisper_total bs
    rwa [whisper_sound h]

/-- A content field takes three bytes at least. -/
def content (f : Field) : Bool := match f.val with
  | .len (_ :: _) => true
  | _ => false

theorem number_pos {p : Bytes} {n : Nat} (h : Number p n) : 0 < p.length := by
  obtain ⟨_, k, h, _⟩ := h
  cases h <;> simp

theorem content_length {bs : Bytes} {fs : List Field} (h : Items bs fs) : 3 * (fs.filter content).length ≤ bs.length := by
  induction h with
  | nil => simp
  | @cons s rest f fs hi _ ih =>
    rw [List.filter_cons, List.length_append]
    split
    · rename_i hc
      have : 3 ≤ s.length := by
        cases hi with
        | group => cases hc
        | plain hp =>
          cases hp with
          | varint | i64 | i32 => cases hc
          | @len t l b num ht hl =>
            have h1 := tag_pos ht
            have h2 := number_pos hl
            have h3 : 0 < b.length := by
              cases b with
              | nil => cases hc
              | cons => simp
            simp
            omega
      simp
      omega
    · omega

theorem two_contents {fs : List Field} {a b : Field} (ha : a ∈ fs) (hb : b ∈ fs) (hab : a ≠ b) (ca : content a = true)
    (cb : content b = true) : 2 ≤ (fs.filter content).length := by
  have ma : a ∈ fs.filter content := List.mem_filter.2 ⟨ha, ca⟩
  have mb : b ∈ fs.filter content := List.mem_filter.2 ⟨hb, cb⟩
  match hl : fs.filter content with
  | [] => rw [hl] at ma; cases ma
  | [c] =>
    rw [hl, List.mem_singleton] at ma mb
    exact absurd (ma.trans mb.symm) hab
  | _ :: _ :: _ => simp

/-- C60: what is accepted as a session message is a version byte, six bytes of fields at least and the eight bytes of
the MAC. -/
theorem C60_whisper_shape (bs : Bytes) (m : WhisperMessage) (h : WhisperMessage.parse bs = .ok m) :
    ∃ v body mac fs, bs = v :: (body ++ mac) ∧ mac.length = 8 ∧ 6 ≤ body.length ∧ Items body fs := by
  have h := (C60_whisper bs _).2 h
  cases h with
  | @message v bs fs key body _ _ k hv hi h1 h2 h3 h4 hb hk =>
    have h6 : 6 ≤ (middle 8 (v :: bs)).length := by
      obtain ⟨x, rfl, rfl⟩ := hk
      obtain ⟨p, q, e1, _⟩ := h1
      cases body with
      | none => exact absurd (.inl rfl) hb
      | some b =>
        cases b with
        | nil => exact absurd (.inr rfl) hb
        | cons c b =>
          obtain ⟨p', q', e2, _⟩ := h4
          have := two_contents (fs := fs) (by rw [e1]; simp) (by rw [e2]; simp)
            (show (⟨1, .len (5 :: x)⟩ : Field) ≠ ⟨4, .len (c :: b)⟩ by simp) rfl rfl
          have := content_length hi
          omega
    by_cases hl : 8 ≤ (v :: bs).length
    · refine ⟨v, middle 8 (v :: bs), bs.drop (bs.length - 8), fs, ?_, ?_, h6, hi⟩
      · have hm : middle 8 (v :: bs) = bs.take (bs.length - 8) := by
          unfold middle at h6 ⊢
          rw [if_pos hl] at h6 ⊢
          simp only [List.length_cons, List.length_drop, List.length_take] at h6 hl ⊢
          rw [show bs.length + 1 - 8 = (bs.length - 8) + 1 by omega]
          simp
        rw [hm, List.take_append_drop]
      · unfold middle at h6
        rw [if_pos hl] at h6
        simp at h6 hl ⊢
        omega
    · exfalso
      unfold middle at h6
      rw [if_neg hl] at h6
      simp at h6 hl
      omega

/-! ## `PreKeyWhisperMessage` -/

theorem prekey_cons (v : UInt8) (bs : Bytes) :
    PreKeyWhisperMessage.parse (v :: bs) = PreKeyWhisperMessage.wrap (
      if v.toNat / 16 > 3 then .error .invalidVersion
      else if v.toNat / 16 < 3 then .error .legacyMessage
      else parseWith PreKeyWhisperMessageP.ofFields bs >>= fun m =>
        if m.baseKey.getD [] = [] ∨ m.identityKey.getD [] = [] ∨ m.message.getD [] = [] then .error .invalidMessage
        else Curve.decodePoint (m.baseKey.getD []) >>= fun bk => Curve.decodePoint (m.identityKey.getD []) >>= fun ik =>
          WhisperMessage.parse (m.message.getD []) >>= fun inner =>
          .ok { serialized := v :: bs, version := v.toNat / 16
                registrationId := m.registrationId.getD 0, preKeyId := some (m.preKeyId.getD 0)
                signedPreKeyId := m.signedPreKeyId.getD 0, baseKey := bk, identityKey := ik, message := inner }) := by
  unfold PreKeyWhisperMessage.parse
  rw [if_neg (by simp)]
  unfold PreKeyWhisperMessage.parseBody
  simp only [highBits_eq]
  rfl

theorem blank_decode {o : Option Bytes} (hc : o.getD [] = []) : Curve.decodePoint (o.getD []) = .error .indexError := by
  rw [hc]
  rfl

/-- A session message inside a prekey message is refused for one of three reasons. -/
theorem whisper_error {bs : Bytes} {e : Err} (hne : bs ≠ []) (h : ReadsWhisper bs (.error e)) :
    e = .invalidMessage ∨ e = .legacyMessage ∨ e = .decodeError := by
  cases h with
  | empty => exact absurd rfl hne
  | _ => simp

theorem prekey_sound {bs : Bytes} {r : Res PreKeyWhisperMessage} (h : ReadsPreKey bs r) :
    PreKeyWhisperMessage.parse bs = r := by
  cases h with
  | empty => rfl
  | legacy h => rw [prekey_cons, if_neg (by omega), if_pos h]; rfl
  | future h => rw [prekey_cons, if_pos h]; rfl
  | notFields h hi =>
    rw [prekey_cons, if_neg (by omega), if_neg (by omega), parse_notFields hi]
    rfl
  | incomplete h hi h2 h3 h4 hb =>
    rw [prekey_cons, if_neg (by omega), if_neg (by omega), parse_items hi]
    simp only [PreKeyWhisperMessageP.ofFields, ok_bind, lastBytes_get h2, lastBytes_get h3, lastBytes_get h4]
    rw [if_pos (by rw [← blank_iff, ← blank_iff, ← blank_iff]; exact hb)]
    rfl
  | @badKey _ _ _ base identity _ h hi h2 h3 h4 b2 b3 b4 hk =>
    rw [prekey_cons, if_neg (by omega), if_neg (by omega), parse_items hi]
    simp only [PreKeyWhisperMessageP.ofFields, ok_bind, lastBytes_get h2, lastBytes_get h3, lastBytes_get h4]
    rw [if_neg (by rw [← blank_iff, ← blank_iff, ← blank_iff]; rintro (hc | hc | hc) <;> contradiction)]
    rcases key_cases base with hb | hb | ⟨k, hb⟩
    · exact absurd hb b2
    · rw [(notKey_iff _).1 hb]
      rfl
    · rw [KeyOf_iff.1 hb, ok_bind]
      rcases hk with hk | hk
      · have := KeyOf_iff.1 hb
        rw [(notKey_iff _).1 hk] at this
        cases this
      · rw [(notKey_iff _).1 hk]
        rfl
  | @badMessage _ _ inner _ base identity k1 k2 e h hi h2 h3 h4 hk1 hk2 hne hm =>
    rw [prekey_cons, if_neg (by omega), if_neg (by omega), parse_items hi]
    simp only [PreKeyWhisperMessageP.ofFields, ok_bind, lastBytes_get h2, lastBytes_get h3, lastBytes_get h4]
    rw [if_neg, KeyOf_iff.1 hk1, ok_bind, KeyOf_iff.1 hk2, ok_bind]
    · simp only [Option.getD_some]
      rw [whisper_sound hm]
      rcases whisper_error hne hm with rfl | rfl | rfl <;> rfl
    · rintro (hc | hc | hc)
      · have := blank_decode hc; rw [KeyOf_iff.1 hk1] at this; cases this
      · have := blank_decode hc; rw [KeyOf_iff.1 hk2] at this; cases this
      · exact hne hc
  | @message _ _ inner _ _ _ _ _ _ k1 k2 m h hi h1 h2 h3 h4 h5 h6 hk1 hk2 hm =>
    rw [prekey_cons, if_neg (by omega), if_neg (by omega), parse_items hi]
    simp only [PreKeyWhisperMessageP.ofFields, ok_bind, lastBytes_get h2, lastBytes_get h3, lastBytes_get h4,
      lastNumber_get h1, lastNumber_get h5, lastNumber_get h6]
    rw [if_neg, KeyOf_iff.1 hk1, ok_bind, KeyOf_iff.1 hk2, ok_bind]
    · simp only [Option.getD_some]
      rw [whisper_sound hm, h]
      rfl
    · rintro (hc | hc | hc)
      · have := blank_decode hc; rw [KeyOf_iff.1 hk1] at this; cases this
      · have := blank_decode hc; rw [KeyOf_iff.1 hk2] at this; cases this
      · have hc : inner = [] := hc
        subst hc
        cases hm

theorem prekey_total (bs : Bytes) : ∃ r, ReadsPreKey bs r := by
  cases bs with
  | nil => exact ⟨_, .empty⟩
  | cons v bs =>
    by_cases h1 : v.toNat / 16 < 3
    · exact ⟨_, .legacy h1⟩
    by_cases h2 : 3 < v.toNat / 16
    · exact ⟨_, .future h2⟩
    have h : v.toNat / 16 = 3 := by omega
    rcases items_or bs with ⟨fs, hi⟩ | hi
    · obtain ⟨_, g1⟩ := lastNumber_exists 1 fs
      obtain ⟨base, g2⟩ := lastBytes_exists 2 fs
      obtain ⟨identity, g3⟩ := lastBytes_exists 3 fs
      obtain ⟨body, g4⟩ := lastBytes_exists 4 fs
      obtain ⟨_, g5⟩ := lastNumber_exists 5 fs
      obtain ⟨_, g6⟩ := lastNumber_exists 6 fs
      by_cases b4 : Blank body
      · exact ⟨_, .incomplete h hi g2 g3 g4 (.inr (.inr b4))⟩
      by_cases b2 : Blank base
      · exact ⟨_, .incomplete h hi g2 g3 g4 (.inl b2)⟩
      by_cases b3 : Blank identity
      · exact ⟨_, .incomplete h hi g2 g3 g4 (.inr (.inl b3))⟩
      rcases key_cases base with hk | hk | ⟨k1, hk1⟩
      · exact absurd hk b2
      · exact ⟨_, .badKey h hi g2 g3 g4 b2 b3 b4 (.inl hk)⟩
      rcases key_cases identity with hk | hk | ⟨k2, hk2⟩
      · exact absurd hk b3
      · exact ⟨_, .badKey h hi g2 g3 g4 b2 b3 b4 (.inr hk)⟩
      cases body with
      | none => exact absurd (.inl rfl) b4
      | some inner =>
        have hne : inner ≠ [] := fun e => b4 (.inr (by rw [e]))
        obtain ⟨r, hr⟩ := whisper_total inner
        cases r with
        | error e => exact ⟨_, .badMessage h hi g2 g3 g4 hk1 hk2 hne hr⟩
        | ok m => exact ⟨_, .message h hi g1 g2 g3 g4 g5 g6 hk1 hk2 hr⟩
    · exact ⟨_, .notFields h hi⟩

/-- C60 -/
theorem C60_prekey (bs : Bytes) (r : Res PreKeyWhisperMessage) : ReadsPreKey bs r ↔ PreKeyWhisperMessage.parse bs = r := by
  constructor
  · exact prekey_sound
  · rintro rfl
    obtain ⟨r, h⟩ := prekey_total bs
    rwa [prekey_sound h]

/-! ## `KeyExchangeMessage` -/

theorem exchange_cons (v : UInt8) (bs : Bytes) :
    KeyExchangeMessage.parse (v :: bs) = WhisperMessage.wrapInvalidKey (
      if v.toNat / 16 < 3 then .error .legacyMessage
      else if v.toNat / 16 > 3 then .error .invalidVersion
      else parseWith KeyExchangeMessageP.ofFields bs >>= fun m =>
        match m.id, m.baseKey, m.ratchetKey, m.identityKey, m.baseKeySignature with
        | some id, some bk, some rk, some ik, some sig =>
          Curve.decodePoint bk >>= fun bk => Curve.decodePoint rk >>= fun rk => Curve.decodePoint ik >>= fun ik =>
          .ok { serialized := v :: bs, version := v.toNat / 16, supportedVersion := v.toNat % 16
                sequence := id / 32, flags := id % 32, baseKey := bk, baseKeySignature := sig
                ratchetKey := rk, identityKey := ik }
        | _, _, _, _, _ => .error .invalidMessage) := by
  unfold KeyExchangeMessage.parse
  rw [if_neg (by simp)]
  unfold KeyExchangeMessage.parseBody
  simp only [split2_head, highBits_eq, lowBits_eq, Nat.shiftRight_eq_div_pow,
    show ∀ n : Nat, n &&& 0x1f = n % 32 from fun n => Nat.and_two_pow_sub_one_eq_mod n 5]
  rfl

theorem decode_key {b : Bytes} {k : ECPub} (h : KeyOf (some b) k) : Curve.decodePoint b = .ok k := KeyOf_iff.1 h
theorem decode_notKey {b : Bytes} (h : NotKey (some b)) : Curve.decodePoint b = .error .invalidKey := (notKey_iff _).1 h

theorem exchange_sound {bs : Bytes} {r : Res KeyExchangeMessage} (h : ReadsExchange bs r) :
    KeyExchangeMessage.parse bs = r := by
  cases h with
  | empty => rfl
  | legacy h => rw [exchange_cons, if_pos h]; rfl
  | future h => rw [exchange_cons, if_neg (by omega), if_pos h]; rfl
  | notFields h hi =>
    rw [exchange_cons, if_neg (by omega), if_neg (by omega), parse_notFields hi]
    rfl
  | incomplete h hi hn =>
    rw [exchange_cons, if_neg (by omega), if_neg (by omega), parse_items hi]
    simp only [KeyExchangeMessageP.ofFields, ok_bind]
    rcases hn with h1 | h1 | h1 | h1 | h1
    · rw [lastNumber_get h1]; rfl
    · rw [lastBytes_get h1]; split <;> first | rfl | contradiction
    · rw [lastBytes_get h1]; split <;> first | rfl | contradiction
    · rw [lastBytes_get h1]; split <;> first | rfl | contradiction
    · rw [lastBytes_get h1]; split <;> first | rfl | contradiction
  | @badKey v bs _ id base ratchet identity signature e h hi h1 h2 h3 h4 h5 hk =>
    rw [exchange_cons, if_neg (by omega), if_neg (by omega), parse_items hi]
    simp only [KeyExchangeMessageP.ofFields, ok_bind, lastNumber_get h1, lastBytes_get h2, lastBytes_get h3,
      lastBytes_get h4, lastBytes_get h5]
    obtain ⟨x, k, y, he, hx, hk⟩ := hk
    match x, he, hx with
    | [], he, _ =>
      obtain ⟨rfl, rfl⟩ := List.cons.inj he
      rcases hk with ⟨rfl, rfl⟩ | ⟨hk, rfl⟩
      · rfl
      · rw [decode_notKey hk]; rfl
    | [a], he, hx =>
      simp only [List.cons_append, List.nil_append, List.cons.injEq] at he
      obtain ⟨rfl, rfl, rfl⟩ := he
      obtain ⟨p, hp⟩ := hx _ (List.mem_singleton.2 rfl)
      rw [decode_key hp, ok_bind]
      rcases hk with ⟨rfl, rfl⟩ | ⟨hk, rfl⟩
      · rfl
      · rw [decode_notKey hk]; rfl
    | [a, b], he, hx =>
      simp only [List.cons_append, List.nil_append, List.cons.injEq] at he
      obtain ⟨rfl, rfl, rfl, _⟩ := he
      obtain ⟨p, hp⟩ := hx _ (List.mem_cons_self ..)
      obtain ⟨q, hq⟩ := hx _ (List.mem_cons_of_mem _ (List.mem_singleton.2 rfl))
      rw [decode_key hp, ok_bind, decode_key hq, ok_bind]
      rcases hk with ⟨rfl, rfl⟩ | ⟨hk, rfl⟩
      · rfl
      · rw [decode_notKey hk]; rfl
    | a :: b :: c :: x, he, _ =>
      have := congrArg List.length he
      simp at this
  | message h hi h1 h2 h3 h4 h5 k1 k2 k3 =>
    rw [exchange_cons, if_neg (by omega), if_neg (by omega), parse_items hi]
    simp only [KeyExchangeMessageP.ofFields, ok_bind, lastNumber_get h1, lastBytes_get h2, lastBytes_get h3,
      lastBytes_get h4, lastBytes_get h5, decode_key k1, decode_key k2, decode_key k3, h]
    rfl

theorem exchange_total (bs : Bytes) : ∃ r, ReadsExchange bs r := by
  cases bs with
  | nil => exact ⟨_, .empty⟩
  | cons v bs =>
    by_cases h1 : v.toNat / 16 < 3
    · exact ⟨_, .legacy h1⟩
    by_cases h2 : 3 < v.toNat / 16
    · exact ⟨_, .future h2⟩
    have h : v.toNat / 16 = 3 := by omega
    rcases items_or bs with ⟨fs, hi⟩ | hi
    · obtain ⟨o1, g1⟩ := lastNumber_exists 1 fs
      obtain ⟨o2, g2⟩ := lastBytes_exists 2 fs
      obtain ⟨o3, g3⟩ := lastBytes_exists 3 fs
      obtain ⟨o4, g4⟩ := lastBytes_exists 4 fs
      obtain ⟨o5, g5⟩ := lastBytes_exists 5 fs
      match o1, o2, o3, o4, o5, g1, g2, g3, g4, g5 with
      | none, _, _, _, _, g, _, _, _, _ => exact ⟨_, .incomplete h hi (.inl g)⟩
      | _, none, _, _, _, _, g, _, _, _ => exact ⟨_, .incomplete h hi (.inr (.inl g))⟩
      | _, _, none, _, _, _, _, g, _, _ => exact ⟨_, .incomplete h hi (.inr (.inr (.inl g)))⟩
      | _, _, _, none, _, _, _, _, g, _ => exact ⟨_, .incomplete h hi (.inr (.inr (.inr (.inl g))))⟩
      | _, _, _, _, none, _, _, _, _, g => exact ⟨_, .incomplete h hi (.inr (.inr (.inr (.inr g))))⟩
      | some id, some base, some ratchet, some identity, some sig, g1, g2, g3, g4, g5 =>
        have key : ∀ x k y, [base, ratchet, identity] = x ++ k :: y → (∀ j ∈ x, ∃ p, KeyOf (some j) p) →
            (∃ p, KeyOf (some k) p) ∨ ∃ r, ReadsExchange (v :: bs) r := by
          intro x k y he hx
          rcases key_cases (some k) with hb | hb | hb
          · refine .inr ⟨_, .badKey h hi g1 g2 g3 g4 g5 ⟨x, k, y, he, hx, .inl ⟨?_, rfl⟩⟩⟩
            rcases hb with hb | hb
            · cases hb
            · exact Option.some.inj hb
          · exact .inr ⟨_, .badKey h hi g1 g2 g3 g4 g5 ⟨x, k, y, he, hx, .inr ⟨hb, rfl⟩⟩⟩
          · exact .inl hb
        rcases key [] base [ratchet, identity] rfl (by intro j hj; cases hj) with ⟨k1, hk1⟩ | hr
        · rcases key [base] ratchet [identity] rfl
            (by intro j hj; rw [List.mem_singleton.1 hj]; exact ⟨k1, hk1⟩) with ⟨k2, hk2⟩ | hr
          · rcases key [base, ratchet] identity [] rfl (by
                intro j hj
                rcases List.mem_cons.1 hj with rfl | hj
                · exact ⟨k1, hk1⟩
                · rw [List.mem_singleton.1 hj]; exact ⟨k2, hk2⟩) with ⟨k3, hk3⟩ | hr
            · exact ⟨_, .message h hi g1 g2 g3 g4 g5 hk1 hk2 hk3⟩
            · exact hr
          · exact hr
        · exact hr
    · exact ⟨_, .notFields h hi⟩

/-- C60 -/
theorem C60_exchange (bs : Bytes) (r : Res KeyExchangeMessage) : ReadsExchange bs r ↔ KeyExchangeMessage.parse bs = r := by
  constructor
  · exact exchange_sound
  · rintro rfl
    obtain ⟨r, h⟩ := exchange_total bs
    rwa [exchange_sound h]

/-! ## Group messages -/

theorem group_cons (v : UInt8) (bs : Bytes) :
    SenderKeyMessage.parse (v :: bs) = SenderKeyMessage.wrapAll (
      if v.toNat / 16 < 3 then .error .legacyMessage
      else if v.toNat / 16 > 3 then .error .invalidMessage
      else parseWith SenderKeyMessageP.ofFields (middle 64 (v :: bs)) >>= fun m =>
        .ok { serialized := v :: bs, messageVersion := v.toNat / 16, keyId := m.id.getD 0
              iteration := m.iteration.getD 0, ciphertext := m.ciphertext.getD [] }) := by
  unfold SenderKeyMessage.parse
  rw [if_neg (by simp)]
  unfold SenderKeyMessage.parseBody
  simp only [split3_fst]
  have := middle_eq v bs 64
  rw [show ((64 : Nat) : Int) = (SenderKeyMessage.SIGNATURE_LENGTH : Int) from rfl] at this
  rw [this, highBits_eq]
  rfl

theorem group_sound {bs : Bytes} {r : Res SenderKeyMessage} (h : ReadsGroup bs r) : SenderKeyMessage.parse bs = r := by
  cases h with
  | empty => rfl
  | @version v bs h =>
    rw [group_cons]
    by_cases h1 : v.toNat / 16 < 3
    · rw [if_pos h1]; rfl
    · rw [if_neg h1, if_pos (by omega)]; rfl
  | notFields h hi =>
    rw [group_cons, if_neg (by omega), if_neg (by omega), parse_notFields hi]
    rfl
  | message h hi h1 h2 h3 =>
    rw [group_cons, if_neg (by omega), if_neg (by omega), parse_items hi]
    simp only [SenderKeyMessageP.ofFields, ok_bind, lastNumber_get h1, lastNumber_get h2, lastBytes_get h3, h]
    rfl

theorem group_total (bs : Bytes) : ∃ r, ReadsGroup bs r := by
  cases bs with
  | nil => exact ⟨_, .empty⟩
  | cons v bs =>
    by_cases h : v.toNat / 16 = 3
    · rcases items_or (middle 64 (v :: bs)) with ⟨fs, hi⟩ | hi
      · obtain ⟨_, g1⟩ := lastNumber_exists 1 fs
        obtain ⟨_, g2⟩ := lastNumber_exists 2 fs
        obtain ⟨_, g3⟩ := lastBytes_exists 3 fs
        exact ⟨_, .message h hi g1 g2 g3⟩
      · exact ⟨_, .notFields h hi⟩
    · exact ⟨_, .version h⟩

/-- C60 -/
theorem C60_group (bs : Bytes) (r : Res SenderKeyMessage) : ReadsGroup bs r ↔ SenderKeyMessage.parse bs = r := by
  constructor
  · exact group_sound
  · rintro rfl
    obtain ⟨r, h⟩ := group_total bs
    rwa [group_sound h]

theorem distribution_cons (v : UInt8) (bs : Bytes) :
    SenderKeyDistributionMessage.parse (v :: bs) = SenderKeyMessage.wrapAll (
      if v.toNat / 16 < 3 then .error .legacyMessage
      else if v.toNat / 16 > 3 then .error .invalidMessage
      else parseWith SenderKeyDistributionMessageP.ofFields bs >>= fun m =>
        Curve.decodePoint (m.signingKey.getD []) >>= fun sk =>
        .ok { serialized := v :: bs, id := m.id.getD 0, iteration := m.iteration.getD 0
              chainKey := m.chainKey.getD [], signatureKey := sk }) := by
  unfold SenderKeyDistributionMessage.parse
  rw [if_neg (by simp)]
  unfold SenderKeyDistributionMessage.parseBody
  simp only [split2_head, highBits_eq]
  rfl

theorem distribution_sound {bs : Bytes} {r : Res SenderKeyDistributionMessage} (h : ReadsDistribution bs r) :
    SenderKeyDistributionMessage.parse bs = r := by
  cases h with
  | empty => rfl
  | @version v bs h =>
    rw [distribution_cons]
    by_cases h1 : v.toNat / 16 < 3
    · rw [if_pos h1]; rfl
    · rw [if_neg h1, if_pos (by omega)]; rfl
  | notFields h hi =>
    rw [distribution_cons, if_neg (by omega), if_neg (by omega), parse_notFields hi]
    rfl
  | badKey h hi h4 hk =>
    rw [distribution_cons, if_neg (by omega), if_neg (by omega), parse_items hi]
    simp only [SenderKeyDistributionMessageP.ofFields, ok_bind, lastBytes_get h4]
    rcases hk with hk | hk
    · rw [blank_decode ((blank_iff _).1 hk)]; rfl
    · rw [(notKey_iff _).1 hk]; rfl
  | message h hi h1 h2 h3 h4 hk =>
    rw [distribution_cons, if_neg (by omega), if_neg (by omega), parse_items hi]
    simp only [SenderKeyDistributionMessageP.ofFields, ok_bind, lastNumber_get h1, lastNumber_get h2, lastBytes_get h3,
      lastBytes_get h4, KeyOf_iff.1 hk]
    rfl

theorem distribution_total (bs : Bytes) : ∃ r, ReadsDistribution bs r := by
  cases bs with
  | nil => exact ⟨_, .empty⟩
  | cons v bs =>
    by_cases h : v.toNat / 16 = 3
    · rcases items_or bs with ⟨fs, hi⟩ | hi
      · obtain ⟨_, g1⟩ := lastNumber_exists 1 fs
        obtain ⟨_, g2⟩ := lastNumber_exists 2 fs
        obtain ⟨_, g3⟩ := lastBytes_exists 3 fs
        obtain ⟨key, g4⟩ := lastBytes_exists 4 fs
        rcases key_cases key with hk | hk | ⟨k, hk⟩
        · exact ⟨_, .badKey h hi g4 (.inl hk)⟩
        · exact ⟨_, .badKey h hi g4 (.inr hk)⟩
        · exact ⟨_, .message h hi g1 g2 g3 g4 hk⟩
      · exact ⟨_, .notFields h hi⟩
    · exact ⟨_, .version h⟩

/-- C60 -/
theorem C60_distribution (bs : Bytes) (r : Res SenderKeyDistributionMessage) :
    ReadsDistribution bs r ↔ SenderKeyDistributionMessage.parse bs = r := by
  constructor
  · exact distribution_sound
  · rintro rfl
    obtain ⟨r, h⟩ := distribution_total bs
    rwa [distribution_sound h]

/-! ## Examples -/

/-- Fields in another order, one of them twice and one unknown: read as the message with key 7, counter 300, body 9. -/
def exampleWhisper : Bytes :=
  [0x33] ++ [0x22, 1, 8] ++ [0x10, 5] ++ [0x7a, 2, 1, 1] ++ [0x10, 0xac, 0x02] ++ [0x0a, 2, 5, 7] ++ [0x22, 1, 9] ++
    [1, 2, 3, 4, 5, 6, 7, 8]

example : ∃ m, ReadsWhisper exampleWhisper (.ok m) ∧ m.counter = 300 ∧ m.previousCounter = 0 ∧ m.senderRatchetKey = [7] ∧
    m.ciphertext = [9] := ⟨_, (C60_whisper _ _).2 rfl, rfl, rfl, rfl, rfl⟩

/-- Every case of the five lists occurs. -/
example : ReadsWhisper [0x33] (.error .decodeError) ∨ ReadsWhisper [0x33] (.error .invalidMessage) := by
  rw [C60_whisper, C60_whisper]; decide
example : ReadsWhisper [0x13, 1] (.error .legacyMessage) ∧ ReadsWhisper [0x43, 1] (.error .invalidMessage) ∧
    ReadsWhisper ([0x33, 0x0a, 5] ++ [1, 2, 3, 4, 5, 6, 7, 8]) (.error .decodeError) := by
  rw [C60_whisper, C60_whisper, C60_whisper]; decide
example : ReadsPreKey [0x13, 1] (.error .invalidMessage) ∧ ReadsPreKey [0x43, 1] (.error .invalidVersion) ∧
    ReadsPreKey [0x33, 0x12, 1, 6, 0x1a, 1, 5, 0x22, 1, 1] (.error .invalidMessage) := by
  rw [C60_prekey, C60_prekey, C60_prekey]; decide
/-- an empty identity key in a key exchange message -/
example : ReadsExchange [0x33, 0x08, 1, 0x12, 1, 5, 0x1a, 1, 5, 0x22, 0, 0x2a, 0] (.error .indexError) := by
  rw [C60_exchange]; decide
example : ∃ m, ReadsExchange [0x33, 0x08, 0x21, 0x12, 2, 5, 1, 0x1a, 2, 5, 2, 0x22, 2, 5, 3, 0x2a, 0] (.ok m) ∧
    m.sequence = 1 ∧ m.flags = 1 ∧ m.ratchetKey = [2] := ⟨_, (C60_exchange _ _).2 rfl, rfl, rfl, rfl⟩
/-- a group message too short to carry a signature still parses; the signature check refuses it -/
example : ∃ m, ReadsGroup [0x33] (.ok m) := ⟨_, (C60_group _ _).2 rfl⟩
example : ∃ m, ReadsDistribution [0x33, 0x08, 4, 0x22, 2, 5, 1] (.ok m) ∧ m.id = 4 ∧ m.signatureKey = [1] :=
  ⟨_, (C60_distribution _ _).2 rfl, rfl, rfl⟩

end Axolotl
