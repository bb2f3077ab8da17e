import Verif.Proofs.KeyExchange
import Verif.Spec.Conversation

/-! The invariant of a conversation: ratchet epochs shared by both sides. -/

namespace Axolotl
section
variable [C : Crypto]
open SessionState SessionBuilder RatchetingSession
open Spec (GoodPair Net Conv header nextCounter seenKeys retained)

/-! ## Lists -/

omit C in
theorem nextCounter_append (log : List (ECPub × Nat)) (h : ECPub × Nat) (k : ECPub) :
    nextCounter (log ++ [h]) k = if h.1 = k then max (nextCounter log k) (h.2 + 1) else nextCounter log k := by
  unfold nextCounter; rw [List.foldl_append]; rfl

omit C in
theorem seenKeys_append (start : List ECPub) (log : List (ECPub × Nat)) (h : ECPub × Nat) :
    seenKeys start (log ++ [h]) =
      if h.1 ∈ seenKeys start log then seenKeys start log else seenKeys start log ++ [h.1] := by
  unfold seenKeys; rw [List.foldl_append]; rfl

omit C in
theorem lt_nextCounter {k : ECPub} {x : Nat} : ∀ {log : List (ECPub × Nat)} (n : Nat), ((k, x) ∈ log ∨ x < n) →
    x < log.foldl (fun n h => if h.1 = k then max n (h.2 + 1) else n) n := by
  intro log
  induction log with
  | nil => intro n h; simpa using h
  | cons h log ih =>
    intro n hx
    rw [List.foldl_cons]
    apply ih
    rcases hx with hx | hx
    · rcases List.mem_cons.1 hx with e | hx
      · right; rw [← e]; simp only [if_true]; omega
      · exact Or.inl hx
    · right; split <;> omega

omit C in
theorem mem_log_lt {log : List (ECPub × Nat)} {k : ECPub} {x : Nat} (h : (k, x) ∈ log) : x < nextCounter log k :=
  lt_nextCounter 0 (Or.inl h)

omit C in
theorem mem_log_seen {start : List ECPub} {k : ECPub} {x : Nat} : ∀ {log : List (ECPub × Nat)}, (k, x) ∈ log →
    k ∈ seenKeys start log := by
  have mono : ∀ (log : List (ECPub × Nat)) (l : List ECPub), k ∈ l →
      k ∈ log.foldl (fun l h => if h.1 ∈ l then l else l ++ [h.1]) l := by
    intro log
    induction log with
    | nil => intro l h; exact h
    | cons h log ih =>
      intro l hk
      rw [List.foldl_cons]
      apply ih
      split
      · exact hk
      · exact List.mem_append_left _ hk
  intro log
  unfold seenKeys
  induction log generalizing start with
  | nil => intro h; cases h
  | cons h log ih =>
    intro hx
    rw [List.foldl_cons]
    rcases List.mem_cons.1 hx with e | hx
    · apply mono
      rw [← e]
      simp only
      split
      · assumption
      · simp
    · exact ih hx

omit C in
theorem nextCounter_absent {log : List (ECPub × Nat)} {k : ECPub} (h : ∀ x, (k, x) ∉ log) : nextCounter log k = 0 := by
  unfold nextCounter
  induction log with
  | nil => rfl
  | cons a log ih =>
    rw [List.foldl_cons, if_neg]
    · exact ih fun x hx => h x (List.mem_cons_of_mem _ hx)
    · intro e; exact h a.2 (by rw [← e]; exact List.mem_cons_self ..)

omit C in
theorem last5_get {α : Type} (l : List α) (t : Nat) (h : l.length - 5 ≤ t) : (last5 l)[t - (l.length - 5)]? = l[t]? := by
  unfold last5; rw [List.getElem?_drop]; congr 1; omega

omit C in
theorem last5_set {α : Type} (l : List α) (t : Nat) (a : α) (h : l.length - 5 ≤ t) :
    (last5 l).set (t - (l.length - 5)) a = last5 (l.set t a) := by
  unfold last5
  rw [List.length_set, List.drop_set, if_neg (by omega)]

omit C in
theorem filterMap_congr' {α β : Type} {f g : α → Option β} : ∀ {l : List α}, (∀ a ∈ l, f a = g a) →
    l.filterMap f = l.filterMap g
  | [], _ => rfl
  | a :: l, h => by
    rw [List.filterMap_cons, List.filterMap_cons, h a (List.mem_cons_self ..),
      filterMap_congr' fun x hx => h x (List.mem_cons_of_mem _ hx)]

/-! ## The invariant -/

variable {v : Kdf}

/-- Bookkeeping that the code does not have: all epochs, the current one of each side, send counters, the
receive chains ever opened, and the epoch and number of every message. -/
structure Ghost (v : Kdf) where
  E : Nat → Epoch v
  top : Nat
  n : Bool → Nat
  full : Bool → List (Recv v)
  tag : Bool → Nat → Nat × Nat

/-- Side `true` receives epochs 0, 2, 4, ...; side `false` receives 1, 3, 5, ... -/
def off : Bool → Nat
  | true => 0
  | false => 1

def Ghost.e (g : Ghost v) (b : Bool) : Nat := 2 * (g.full b).length + off b - 1

/-- `g'` goes on from `g`, with ratchet keys that are not among `keys`. -/
structure Ghost.Extends (keys : List ECPub) (g g' : Ghost v) : Prop where
  top : g.top ≤ g'.top
  same : ∀ j, j ≤ g.top → g'.E j = g.E j
  fresh : ∀ j, g.top < j → j ≤ g'.top → (g'.E j).pub ∉ keys

omit C in
theorem Ghost.Extends.refl (keys : List ECPub) (g : Ghost v) : g.Extends keys g :=
  ⟨Nat.le_refl _, fun _ _ => rfl, fun j h1 h2 => by omega⟩

omit C in
theorem Ghost.Extends.trans {keys keys' : List ECPub} {g g' g'' : Ghost v} (h : g.Extends keys g') (h' : g'.Extends keys' g'')
    (hk : ∀ x ∈ keys, x ∈ keys') : g.Extends keys g'' := by
  refine ⟨Nat.le_trans h.top h'.top, fun j hj => ?_, fun j h1 h2 => ?_⟩
  · rw [h'.same j (Nat.le_trans hj h.top), h.same j hj]
  · by_cases hj : j ≤ g'.top
    · rw [h'.same j hj]; exact h.fresh j h1 hj
    · exact fun hm => h'.fresh j (by omega) h2 (hk _ hm)

omit C in
/-- A new epoch. -/
theorem Ghost.extends_new {keys : List ECPub} {g : Ghost v} {z : Epoch v} (hz : z.pub ∉ keys) (f n t) :
    g.Extends keys ⟨upd g.E (g.top + 1) z, g.top + 1, n, f, t⟩ := by
  refine ⟨Nat.le_succ _, fun j hj => ?_, fun j h1 h2 => ?_⟩
  · show upd g.E (g.top + 1) z j = g.E j
    unfold upd; rw [if_neg (by omega)]
  · have h2 : j ≤ g.top + 1 := h2
    obtain rfl : j = g.top + 1 := by omega
    show (upd g.E (g.top + 1) z (g.top + 1)).pub ∉ keys
    unfold upd; rw [if_pos rfl]; exact hz

structure GInv (cv : Conv) (ids : Bool → ECPub) (net : Net) (g : Ghost v) : Prop where
  idsLen : ∀ b, (ids b).length = 32
  nonempty : g.full true ≠ []
  lo : ∀ b, g.e b ≤ g.top
  hi : ∀ b, g.top ≤ g.e b + 1
  nlt : ∀ b, g.n b < 2 ^ 32
  good : ∀ j, j ≤ g.top → (g.E j).Good
  next : ∀ j, j < g.top → (g.E j).Next (g.E (j + 1))
  inj : ∀ i j, i ≤ g.top → j ≤ g.top → (g.E i).pub = (g.E j).pub → i = j
  keys : ∀ j, j ≤ g.top → (g.E j).pub ∈ net.keys
  ep : ∀ b t r, (g.full b)[t]? = some r → r.ep = g.E (2 * t + off b)
  seen : ∀ b, seenKeys (cv.start b) (net.log b) = (g.full b).map fun r => r.ep.pub
  index : ∀ b r, r ∈ g.full b → r.index = nextCounter (net.log b) r.ep.pub
  missing : ∀ b r, r ∈ g.full b → ∀ k, k ∈ r.missing ↔ k < r.index ∧ (r.ep.pub, k) ∉ net.log b
  nodup : ∀ b r, r ∈ g.full b → r.missing.Nodup
  msg : ∀ b i c pt, (net.sent b)[i]? = some (c, pt) → ∃ t k, g.tag b i = (2 * t + off (!b), k) ∧
    2 * t + off (!b) ≤ g.e b ∧ (2 * t + off (!b) = g.e b → k < g.n b) ∧
    Genuine (ids b) (ids !b) (g.E (2 * t + off (!b))) k pt c.inner
  tags : ∀ b i j, i < (net.sent b).length → j < (net.sent b).length → g.tag b i = g.tag b j → i = j
  valid : ∀ b i, i ∈ net.accepted b → i < (net.sent !b).length

namespace GInv
variable {cv : Conv} {ids : Bool → ECPub} {net : Net} {g : Ghost v}

theorem e_succ (h : GInv cv ids net g) (b : Bool) : g.e b + 1 = 2 * (g.full b).length + off b := by
  unfold Ghost.e
  cases b with
  | false => simp only [off]; omega
  | true =>
    have : (g.full true).length ≠ 0 := by
      intro e; exact h.nonempty (List.length_eq_zero_iff.1 e)
    simp only [off]; omega

theorem pos_le (h : GInv cv ids net g) {b : Bool} {t : Nat} (ht : t < (g.full b).length) : 2 * t + off b ≤ g.top := by
  have := h.e_succ b
  have := h.lo b
  omega

theorem pub_len (h : GInv cv ids net g) (hC : C.Lawful) {b : Bool} {r : Recv v} (hr : r ∈ g.full b) :
    r.ep.pub.length = 32 := by
  obtain ⟨t, ht, rfl⟩ := List.mem_iff_getElem.1 hr
  rw [h.ep b t _ (List.getElem?_eq_getElem ht)]
  exact (h.good _ (h.pos_le ht)).pub_len hC

theorem pub_inj (h : GInv cv ids net g) {b : Bool} {t t' : Nat} {r r' : Recv v} (hr : (g.full b)[t]? = some r)
    (hr' : (g.full b)[t']? = some r') (he : r.ep.pub = r'.ep.pub) : t = t' := by
  have l1 := (List.getElem?_eq_some_iff.1 hr).1
  have l2 := (List.getElem?_eq_some_iff.1 hr').1
  rw [h.ep b t r hr, h.ep b t' r' hr'] at he
  have := h.inj _ _ (h.pos_le l1) (h.pos_le l2) he
  omega

theorem pubs_nodup (h : GInv cv ids net g) (b : Bool) : ((g.full b).map fun r => r.ep.pub).Nodup := by
  unfold List.Nodup
  rw [List.pairwise_iff_getElem]
  intro i j hi hj hij he
  simp only [List.length_map] at hi hj
  simp only [List.getElem_map] at he
  have := h.pub_inj (List.getElem?_eq_getElem hi) (List.getElem?_eq_getElem hj) he
  omega

/-- The same message never appears twice, and a header identifies a message. -/
theorem header_inj (h : GInv cv ids net g) {b : Bool} {i j : Nat} {c c' : Ciphertext} {pt pt' : Bytes}
    (hi : (net.sent b)[i]? = some (c, pt)) (hj : (net.sent b)[j]? = some (c', pt'))
    (he : header c = header c') : i = j := by
  obtain ⟨t, k, h1, h2, h3, h4⟩ := h.msg b i c pt hi
  obtain ⟨t', k', h1', h2', h3', h4'⟩ := h.msg b j c' pt' hj
  have hlo := h.lo b
  unfold header at he
  rw [h4.key, h4.counter, h4'.key, h4'.counter] at he
  injection he with e1 e2
  have := h.inj _ _ (by omega) (by omega) e1
  refine h.tags b i j (List.getElem?_eq_some_iff.1 hi).1 (List.getElem?_eq_some_iff.1 hj).1 ?_
  rw [h1, h1', this, e2]

theorem mem_log (h : GInv cv ids net g) {b : Bool} {i : Nat} {c : Ciphertext} {pt : Bytes}
    (hi : (net.sent (!b))[i]? = some (c, pt)) : header c ∈ net.log b ↔ i ∈ net.accepted b := by
  unfold Net.log
  rw [List.mem_filterMap]
  constructor
  · rintro ⟨i', h1, h2⟩
    obtain ⟨⟨c', pt'⟩, h3, h4⟩ := Option.map_eq_some_iff.1 h2
    rw [h.header_inj hi h3 h4.symm]
    exact h1
  · intro h1
    exact ⟨i, h1, by rw [hi]; rfl⟩

/-- A message on its way to `b`: its chain is one of those opened, or the next one. -/
theorem locate (h : GInv cv ids net g) {b : Bool} {i : Nat} {c : Ciphertext} {pt : Bytes}
    (hi : (net.sent (!b))[i]? = some (c, pt)) :
    ∃ t k, t ≤ (g.full b).length ∧ 2 * t + off b ≤ g.top ∧ header c = ((g.E (2 * t + off b)).pub, k) ∧
      Genuine (ids !b) (ids b) (g.E (2 * t + off b)) k pt c.inner := by
  obtain ⟨t, k, h1, h2, h3, h4⟩ := h.msg (!b) i c pt hi
  rw [Bool.not_not] at h1 h2 h3 h4
  have a1 := h.lo (!b)
  have a2 := h.hi b
  have a3 := h.e_succ b
  refine ⟨t, k, by omega, by omega, ?_, h4⟩
  unfold header
  rw [h4.key, h4.counter]

/-- The chain of a retained key and its place among the last five. -/
theorem place (h : GInv cv ids net g) {b : Bool} {t : Nat} (ht : t < (g.full b).length)
    (hr : retained (seenKeys (cv.start b) (net.log b)) (g.E (2 * t + off b)).pub) : (g.full b).length - 5 ≤ t := by
  unfold retained at hr
  rw [h.seen b, List.length_map, ← List.map_drop] at hr
  obtain ⟨r, h1, h2⟩ := List.mem_map.1 hr
  obtain ⟨t', ht', rfl⟩ := List.mem_iff_getElem.1 h1
  rw [List.getElem_drop] at h2
  simp only [List.length_drop] at ht'
  have := h.pub_inj (b := b) (t := (g.full b).length - 5 + t') (t' := t)
    (List.getElem?_eq_getElem (by omega)) (List.getElem?_eq_getElem ht)
    (by rw [h2, h.ep b t _ (List.getElem?_eq_getElem ht)])
  omega

theorem in_seen (h : GInv cv ids net g) {b : Bool} {t : Nat} (ht : t < (g.full b).length) :
    (g.E (2 * t + off b)).pub ∈ seenKeys (cv.start b) (net.log b) := by
  rw [h.seen b, List.mem_map]
  exact ⟨_, List.getElem_mem ht, by rw [h.ep b t _ (List.getElem?_eq_getElem ht)]⟩

theorem not_in_seen (h : GInv cv ids net g) {b : Bool} (ht : 2 * (g.full b).length + off b ≤ g.top) :
    (g.E (2 * (g.full b).length + off b)).pub ∉ seenKeys (cv.start b) (net.log b) := by
  rw [h.seen b, List.mem_map]
  rintro ⟨r, h1, h2⟩
  obtain ⟨t', ht', rfl⟩ := List.mem_iff_getElem.1 h1
  rw [h.ep b t' _ (List.getElem?_eq_getElem ht')] at h2
  have := h.inj _ _ (h.pos_le ht') ht h2
  omega

/-- Accepting a message on an open chain. -/
theorem recvOld (h : GInv cv ids net g) {b : Bool} {i t k : Nat} {c : Ciphertext} {pt : Bytes} {r r' : Recv v} {net' : Net}
    (hi : (net.sent (!b))[i]? = some (c, pt)) (hr : (g.full b)[t]? = some r)
    (hh : header c = (r.ep.pub, k)) (hep : r'.ep = r.ep) (hidx : r'.index = max r.index (k + 1))
    (hmis : ∀ x, x ∈ r'.missing ↔ (x ∈ r.missing ∨ (r.index ≤ x ∧ x < k)) ∧ x ≠ k) (hnd : r'.missing.Nodup)
    (hs : net'.sent = net.sent) (ha : net'.accepted = upd net.accepted b (net.accepted b ++ [i]))
    (hk : ∀ x ∈ net.keys, x ∈ net'.keys) :
    GInv cv ids net' { g with full := upd g.full b ((g.full b).set t r') } := by
  have hlog : net'.log b = net.log b ++ [(r.ep.pub, k)] := by
    unfold Net.log
    rw [hs, ha]
    simp only [upd, if_true, List.filterMap_append, List.filterMap_cons, List.filterMap_nil, hi, Option.map_some, hh]
  have hlog' : ∀ a, a ≠ b → net'.log a = net.log a := by
    intro a hab
    unfold Net.log
    rw [hs, ha]
    simp [upd, hab]
  have htl := (List.getElem?_eq_some_iff.1 hr).1
  have hfl : ∀ a, (upd g.full b ((g.full b).set t r') a).length = (g.full a).length := by
    intro a; unfold upd; split
    · rename_i e; rw [e, List.length_set]
    · rfl
  have he : ∀ a, Ghost.e { g with full := upd g.full b ((g.full b).set t r') } a = g.e a := by
    intro a; unfold Ghost.e; simp only; rw [hfl]
  have hget : ∀ a t' q, (upd g.full b ((g.full b).set t r') a)[t']? = some q →
      (a = b ∧ t' = t ∧ q = r') ∨ ((g.full a)[t']? = some q ∧ (a = b → t' ≠ t)) := by
    intro a t' q hq
    unfold upd at hq
    split at hq
    · rename_i e
      subst e
      rw [List.getElem?_set] at hq
      split at hq
      · rename_i e; subst e
        left; exact ⟨rfl, rfl, (Option.some.inj hq).symm⟩
      · rename_i e
        right; exact ⟨hq, fun _ e' => e e'.symm⟩
    · rename_i e
      right; exact ⟨hq, fun e' => absurd e' e⟩
  have hmem : ∀ a q, q ∈ upd g.full b ((g.full b).set t r') a →
      (a = b ∧ q = r') ∨ (q ∈ g.full a ∧ (a = b → q.ep.pub ≠ r.ep.pub)) := by
    intro a q hq
    obtain ⟨t', ht', rfl⟩ := List.mem_iff_getElem.1 hq
    rcases hget a t' _ (List.getElem?_eq_getElem ht') with ⟨h1, h2, h3⟩ | ⟨h1, h2⟩
    · exact Or.inl ⟨h1, h3⟩
    · right
      refine ⟨List.mem_of_getElem? h1, ?_⟩
      rintro rfl e
      exact h2 rfl (h.pub_inj h1 hr e)
  have hrm : r ∈ g.full b := List.mem_of_getElem? hr
  refine ⟨h.idsLen, ?_, ?_, ?_, h.nlt, h.good, h.next, h.inj, fun j hj => hk _ (h.keys j hj), ?_, ?_, ?_, ?_, ?_, ?_, ?_, ?_⟩
  · intro e
    have := hfl true
    simp only at e
    rw [e] at this
    exact h.nonempty (List.length_eq_zero_iff.1 this.symm)
  · intro a; rw [he]; exact h.lo a
  · intro a; rw [he]; exact h.hi a
  · intro a t' q hq
    rcases hget a t' q hq with ⟨rfl, rfl, rfl⟩ | ⟨h1, _⟩
    · rw [hep]; exact h.ep _ _ _ hr
    · exact h.ep a t' q h1
  · intro a
    simp only
    by_cases hab : a = b
    · subst hab
      rw [hlog, seenKeys_append, h.seen a, if_pos (List.mem_map.2 ⟨r, hrm, rfl⟩)]
      unfold upd
      rw [if_pos rfl, List.map_set, hep]
      apply List.ext_getElem?
      intro m
      rw [List.getElem?_set]
      split
      · rename_i e; subst e
        rw [if_pos (by simpa using htl), List.getElem?_map, hr]; rfl
      · rfl
    · rw [hlog' a hab, h.seen a]
      simp [upd, hab]
  · intro a q hq
    rcases hmem a q hq with ⟨rfl, rfl⟩ | ⟨h1, h2⟩
    · rw [hlog, nextCounter_append, hep, if_pos rfl, hidx, h.index _ r hrm]
    · by_cases hab : a = b
      · subst hab
        rw [hlog, nextCounter_append, if_neg (fun e => h2 rfl e.symm)]
        exact h.index a q h1
      · rw [hlog' a hab]; exact h.index a q h1
  · intro a q hq x
    rcases hmem a q hq with ⟨rfl, rfl⟩ | ⟨h1, h2⟩
    · rw [hmis, hlog, hep, hidx, h.missing _ r hrm]
      have hlt := fun y (hy : (r.ep.pub, y) ∈ net.log a) => h.index _ r hrm ▸ mem_log_lt hy
      constructor
      · rintro ⟨h1 | h1, h2⟩
        · refine ⟨by omega, ?_⟩
          rw [List.mem_append, List.mem_singleton]
          rintro (h3 | h3)
          · exact h1.2 h3
          · injection h3 with _ h3; exact h2 h3
        · refine ⟨by omega, ?_⟩
          rw [List.mem_append, List.mem_singleton]
          rintro (h3 | h3)
          · have := hlt x h3; omega
          · injection h3 with _ h3; exact h2 h3
      · rintro ⟨h1, h2⟩
        rw [List.mem_append, List.mem_singleton] at h2
        have hxk : x ≠ k := by rintro rfl; exact h2 (Or.inr rfl)
        refine ⟨?_, hxk⟩
        by_cases hx : x < r.index
        · left; exact ⟨hx, fun h3 => h2 (Or.inl h3)⟩
        · right; omega
    · by_cases hab : a = b
      · subst hab
        rw [hlog, h.missing a q h1, List.mem_append, List.mem_singleton]
        refine and_congr Iff.rfl (not_congr ?_)
        constructor
        · exact Or.inl
        · rintro (h3 | h3)
          · exact h3
          · injection h3 with h3 _; exact absurd h3 (h2 rfl)
      · rw [hlog' a hab]; exact h.missing a q h1 x
  · intro a q hq
    rcases hmem a q hq with ⟨rfl, rfl⟩ | ⟨h1, _⟩
    · exact hnd
    · exact h.nodup a q h1
  · intro a j c' pt' hj
    rw [hs] at hj
    rw [he]
    exact h.msg a j c' pt' hj
  · rw [hs]; exact h.tags
  · intro a j hj
    rw [hs]
    rw [ha] at hj
    unfold upd at hj
    split at hj
    · rename_i e
      subst e
      rcases List.mem_append.1 hj with hj | hj
      · exact h.valid _ j hj
      · rw [List.mem_singleton.1 hj]
        exact (List.getElem?_eq_some_iff.1 hi).1
    · exact h.valid a j hj

/-- Accepting the first message of the next epoch, and generating the epoch after it. -/
theorem recvNew (h : GInv cv ids net g) {b : Bool} {i k : Nat} {c : Ciphertext} {pt : Bytes} {net' : Net} {z : Epoch v}
    (hi : (net.sent (!b))[i]? = some (c, pt)) (htop : g.top = 2 * (g.full b).length + off b)
    (hh : header c = ((g.E g.top).pub, k)) (hz : z.Good) (hnext : (g.E g.top).Next z) (hfresh : z.pub ∉ net.keys)
    (hs : net'.sent = net.sent) (ha : net'.accepted = upd net.accepted b (net.accepted b ++ [i]))
    (hk : net'.keys = z.pub :: net.keys) :
    GInv cv ids net'
      { g with E := upd g.E (g.top + 1) z, top := g.top + 1, n := upd g.n b 0,
               full := upd g.full b (g.full b ++ [⟨g.E g.top, k + 1, List.range' 0 k⟩]) } := by
  have hlog : net'.log b = net.log b ++ [((g.E g.top).pub, k)] := by
    unfold Net.log
    rw [hs, ha]
    simp only [upd, if_true, List.filterMap_append, List.filterMap_cons, List.filterMap_nil, hi, Option.map_some, hh]
  have hlog' : ∀ a, a ≠ b → net'.log a = net.log a := by
    intro a hab
    unfold Net.log
    rw [hs, ha]
    simp [upd, hab]
  have hE : ∀ j, j ≤ g.top → upd g.E (g.top + 1) z j = g.E j := by
    intro j hj; unfold upd; rw [if_neg (by omega)]
  have hE1 : upd g.E (g.top + 1) z (g.top + 1) = z := by unfold upd; rw [if_pos rfl]
  have hns : ∀ q ∈ g.full b, q.ep.pub ≠ (g.E g.top).pub := by
    intro q hq e
    have := h.not_in_seen (b := b) (by omega)
    rw [← htop, h.seen b] at this
    exact this (List.mem_map.2 ⟨q, hq, e⟩)
  have hnl : ∀ x, ((g.E g.top).pub, x) ∉ net.log b := by
    intro x hx
    have := h.not_in_seen (b := b) (by omega)
    rw [← htop] at this
    exact this (mem_log_seen hx)
  have hfb : upd g.full b (g.full b ++ [⟨g.E g.top, k + 1, List.range' 0 k⟩]) b =
      g.full b ++ [⟨g.E g.top, k + 1, List.range' 0 k⟩] := by unfold upd; rw [if_pos rfl]
  have hfo : ∀ a, a ≠ b → upd g.full b (g.full b ++ [⟨g.E g.top, k + 1, List.range' 0 k⟩]) a = g.full a := by
    intro a ha; unfold upd; rw [if_neg ha]
  have hlb := h.e_succ b
  have heb : 2 * (g.full b ++ [(⟨g.E g.top, k + 1, List.range' 0 k⟩ : Recv v)]).length + off b - 1 = g.top + 1 := by
    rw [List.length_append, List.length_singleton]; omega
  have he : ∀ a, Ghost.e { g with
      E := upd g.E (g.top + 1) z, top := g.top + 1, n := upd g.n b 0,
      full := upd g.full b (g.full b ++ [⟨g.E g.top, k + 1, List.range' 0 k⟩]) } a =
      if a = b then g.top + 1 else g.e a := by
    intro a
    unfold Ghost.e
    simp only
    split
    · rename_i e; subst e; rw [hfb]; exact heb
    · rename_i e; rw [hfo a e]
  have hpar : ∀ a, a ≠ b → g.e a = g.top := by
    intro a hab
    obtain rfl : a = !b := by cases a <;> cases b <;> simp_all
    have h1 := h.lo (!b)
    have h2 := h.hi (!b)
    have h3 := h.e_succ (!b)
    cases b <;> simp only [off, Bool.not_true, Bool.not_false] at * <;> omega
  have hmem : ∀ a q, q ∈ upd g.full b (g.full b ++ [⟨g.E g.top, k + 1, List.range' 0 k⟩]) a →
      (a = b ∧ q = ⟨g.E g.top, k + 1, List.range' 0 k⟩) ∨ (q ∈ g.full a ∧ (a = b → q.ep.pub ≠ (g.E g.top).pub)) := by
    intro a q hq
    by_cases hab : a = b
    · subst hab
      rw [hfb] at hq
      rcases List.mem_append.1 hq with hq | hq
      · exact Or.inr ⟨hq, fun _ => hns q hq⟩
      · exact Or.inl ⟨rfl, List.mem_singleton.1 hq⟩
    · rw [hfo a hab] at hq
      exact Or.inr ⟨hq, fun e => absurd e hab⟩
  refine ⟨h.idsLen, ?_, ?_, ?_, ?_, ?_, ?_, ?_, ?_, ?_, ?_, ?_, ?_, ?_, ?_, ?_, ?_⟩
  · by_cases hb : true = b
    · subst hb
      simp only
      rw [hfb]
      simp
    · simp only
      rw [hfo _ hb]
      exact h.nonempty
  · intro a
    rw [he]
    simp only
    split
    · omega
    · have := h.lo a; omega
  · intro a
    rw [he]
    simp only
    split
    · omega
    · rename_i e; rw [hpar a e]; omega
  · intro a
    simp only [upd]
    split
    · decide
    · exact h.nlt a
  · intro j hj
    simp only at hj ⊢
    by_cases e : j = g.top + 1
    · subst e; rw [hE1]; exact hz
    · rw [hE j (by omega)]; exact h.good j (by omega)
  · intro j hj
    simp only at hj ⊢
    by_cases e : j = g.top
    · subst e; rw [hE _ (Nat.le_refl _), hE1]; exact hnext
    · rw [hE j (by omega), hE (j + 1) (by omega)]; exact h.next j (by omega)
  · intro x y hx hy hxy
    simp only at hx hy hxy
    by_cases ex : x = g.top + 1
    · by_cases ey : y = g.top + 1
      · omega
      · subst ex
        rw [hE1, hE y (by omega)] at hxy
        exact absurd (hxy ▸ h.keys y (by omega)) hfresh
    · by_cases ey : y = g.top + 1
      · subst ey
        rw [hE1, hE x (by omega)] at hxy
        exact absurd (hxy ▸ h.keys x (by omega)) hfresh
      · rw [hE x (by omega), hE y (by omega)] at hxy
        exact h.inj x y (by omega) (by omega) hxy
  · intro j hj
    simp only at hj ⊢
    rw [hk]
    by_cases e : j = g.top + 1
    · subst e; rw [hE1]; exact List.mem_cons_self ..
    · rw [hE j (by omega)]; exact List.mem_cons_of_mem _ (h.keys j (by omega))
  · intro a t q hq
    simp only at hq ⊢
    by_cases hab : a = b
    · subst hab
      rw [hfb] at hq
      by_cases hl : t < (g.full a).length
      · rw [List.getElem?_append_left hl] at hq
        rw [hE _ (h.pos_le hl)]
        exact h.ep a t q hq
      · rw [List.getElem?_append_right (by omega)] at hq
        have hlt := (List.getElem?_eq_some_iff.1 hq).1
        simp only [List.length_singleton] at hlt
        obtain rfl : t = (g.full a).length := by omega
        simp only [Nat.sub_self, List.getElem?_cons_zero, Option.some.injEq] at hq
        rw [← hq, ← htop, hE _ (Nat.le_refl _)]
    · rw [hfo a hab] at hq
      rw [hE _ (h.pos_le (List.getElem?_eq_some_iff.1 hq).1)]
      exact h.ep a t q hq
  · intro a
    simp only
    by_cases hab : a = b
    · subst hab
      have := h.not_in_seen (b := a) (by omega)
      rw [← htop] at this
      rw [hlog, seenKeys_append, if_neg this, h.seen a, hfb, List.map_append]
      rfl
    · rw [hlog' a hab, h.seen a, hfo a hab]
  · intro a q hq
    rcases hmem a q hq with ⟨rfl, rfl⟩ | ⟨h1, h2⟩
    · rw [hlog, nextCounter_append, if_pos rfl, nextCounter_absent hnl]
      simp
    · by_cases hab : a = b
      · subst hab
        rw [hlog, nextCounter_append, if_neg (fun e => h2 rfl e.symm)]
        exact h.index a q h1
      · rw [hlog' a hab]; exact h.index a q h1
  · intro a q hq x
    rcases hmem a q hq with ⟨rfl, rfl⟩ | ⟨h1, h2⟩
    · simp only
      rw [hlog, List.mem_range'_1, List.mem_append, List.mem_singleton]
      constructor
      · intro hx
        refine ⟨by omega, ?_⟩
        rintro (h3 | h3)
        · exact hnl x h3
        · injection h3 with _ h3; omega
      · rintro ⟨h1, h2⟩
        have : x ≠ k := by rintro rfl; exact h2 (Or.inr rfl)
        omega
    · by_cases hab : a = b
      · subst hab
        rw [hlog, h.missing a q h1, List.mem_append, List.mem_singleton]
        refine and_congr Iff.rfl (not_congr ?_)
        constructor
        · exact Or.inl
        · rintro (h3 | h3)
          · exact h3
          · injection h3 with h3 _; exact absurd h3 (h2 rfl)
      · rw [hlog' a hab]; exact h.missing a q h1 x
  · intro a q hq
    rcases hmem a q hq with ⟨rfl, rfl⟩ | ⟨h1, _⟩
    · exact List.nodup_range' ..
    · exact h.nodup a q h1
  · intro a j c' pt' hj
    rw [hs] at hj
    obtain ⟨t, m, h1, h2, h3, h4⟩ := h.msg a j c' pt' hj
    have := h.lo a
    refine ⟨t, m, h1, ?_, ?_, ?_⟩
    · rw [he]; split <;> omega
    · rw [he]
      simp only [upd]
      split
      · omega
      · exact h3
    · simp only
      rw [hE _ (by omega)]
      exact h4
  · rw [hs]; exact h.tags
  · intro a j hj
    rw [hs]
    rw [ha] at hj
    unfold upd at hj
    split at hj
    · rename_i e
      subst e
      rcases List.mem_append.1 hj with hj | hj
      · exact h.valid _ j hj
      · rw [List.mem_singleton.1 hj]
        exact (List.getElem?_eq_some_iff.1 hi).1
    · exact h.valid a j hj

/-- Side `b` sends the next message of its epoch. -/
theorem send (h : GInv cv ids net g) {b : Bool} {c : Ciphertext} {pt : Bytes} {net' : Net}
    (hg : Genuine (ids b) (ids !b) (g.E (g.e b)) (g.n b) pt c.inner) (hn : g.n b + 1 < 2 ^ 32)
    (hs : net'.sent = upd net.sent b (net.sent b ++ [(c, pt)])) (ha : net'.accepted = net.accepted)
    (hk : net'.keys = net.keys) :
    GInv cv ids net'
      { g with n := upd g.n b (g.n b + 1),
               tag := upd g.tag b (upd (g.tag b) (net.sent b).length (g.e b, g.n b)) } := by
  have hsb : net'.sent b = net.sent b ++ [(c, pt)] := by rw [hs]; unfold upd; rw [if_pos rfl]
  have hso : ∀ a, a ≠ b → net'.sent a = net.sent a := by intro a e; rw [hs]; unfold upd; rw [if_neg e]
  have hmono : ∀ a i, i < (net.sent a).length → (net'.sent a)[i]? = (net.sent a)[i]? := by
    intro a i hi
    by_cases e : a = b
    · subst e; rw [hsb, List.getElem?_append_left hi]
    · rw [hso a e]
  have hlog : ∀ a, net'.log a = net.log a := by
    intro a
    unfold Net.log
    rw [ha]
    apply filterMap_congr'
    intro i hi
    rw [hmono _ _ (h.valid a i hi)]
  have hep : ∃ t, g.e b = 2 * t + off (!b) := by
    have h1 := h.e_succ b
    cases b with
    | true => exact ⟨(g.full true).length - 1, by
        have : (g.full true).length ≠ 0 := fun e => h.nonempty (List.length_eq_zero_iff.1 e)
        simp only [off, Bool.not_true] at *; omega⟩
    | false => exact ⟨(g.full false).length, by simp only [off, Bool.not_false] at *; omega⟩
  obtain ⟨t, ht⟩ := hep
  refine ⟨h.idsLen, h.nonempty, h.lo, h.hi, ?_, h.good, h.next, h.inj, by rw [hk]; exact h.keys, h.ep, ?_, ?_, ?_,
    h.nodup, ?_, ?_, ?_⟩
  · intro a
    simp only [upd]
    split
    · exact hn
    · exact h.nlt a
  · intro a; rw [hlog]; exact h.seen a
  · intro a; rw [hlog]; exact h.index a
  · intro a; rw [hlog]; exact h.missing a
  · intro a i c' pt' hi
    by_cases hab : a = b
    · subst hab
      by_cases hl : i < (net.sent a).length
      · rw [hmono a i hl] at hi
        obtain ⟨t', k, h1, h2, h3, h4⟩ := h.msg a i c' pt' hi
        refine ⟨t', k, ?_, h2, ?_, h4⟩
        · simp only [upd, if_true]
          rw [if_neg (by omega)]
          exact h1
        · intro e
          simp only [upd, if_true]
          have := h3 e
          omega
      · rw [hsb, List.getElem?_append_right (by omega)] at hi
        have hlt := (List.getElem?_eq_some_iff.1 hi).1
        simp only [List.length_singleton] at hlt
        obtain rfl : i = (net.sent a).length := by omega
        simp only [Nat.sub_self, List.getElem?_cons_zero, Option.some.injEq] at hi
        injection hi with hc hp
        subst hc hp
        refine ⟨t, g.n a, ?_, ?_, ?_, ?_⟩
        · simp only [upd, if_true, ht]
        · show _ ≤ g.e a
          omega
        · intro _
          simp only [upd, if_true]
          omega
        · rw [← ht]; exact hg
    · rw [hso a hab] at hi
      obtain ⟨t', k, h1, h2, h3, h4⟩ := h.msg a i c' pt' hi
      refine ⟨t', k, ?_, h2, ?_, h4⟩
      · simp only [upd, if_neg hab]; exact h1
      · intro e
        simp only [upd, if_neg hab]
        exact h3 e
  · intro a i j hi hj hij
    by_cases hab : a = b
    · subst hab
      simp only [upd, if_true] at hij
      rw [hsb, List.length_append, List.length_singleton] at hi hj
      have old : ∀ m, m < (net.sent a).length → g.tag a m ≠ (g.e a, g.n a) := by
        intro m hm e
        obtain ⟨t', k, h1, h2, h3, h4⟩ := h.msg a m _ _ (List.getElem?_eq_getElem hm)
        rw [e] at h1
        injection h1 with e1 e2
        have := h3 e1.symm
        omega
      split at hij
      · split at hij
        · omega
        · exact absurd hij.symm (old j (by omega))
      · split at hij
        · exact absurd hij (old i (by omega))
        · exact h.tags a i j (by omega) (by omega) hij
    · rw [hso a hab] at hi hj
      simp only [upd, if_neg hab] at hij
      exact h.tags a i j hi hj hij
  · intro a i hi
    rw [ha] at hi
    have := h.valid a i hi
    by_cases e : (!a) = b
    · rw [e] at this ⊢
      rw [hsb, List.length_append]; omega
    · rw [hso _ e]; exact this

/-- Nothing changes in the bookkeeping when only stores and the list of generated keys do. -/
theorem same (h : GInv cv ids net g) {net' : Net} (hs : net'.sent = net.sent) (ha : net'.accepted = net.accepted)
    (hk : ∀ x ∈ net.keys, x ∈ net'.keys) : GInv cv ids net' g := by
  have hlog : ∀ a, net'.log a = net.log a := by intro a; unfold Net.log; rw [hs, ha]
  refine ⟨h.idsLen, h.nonempty, h.lo, h.hi, h.nlt, h.good, h.next, h.inj, fun j hj => hk _ (h.keys j hj), h.ep, ?_, ?_, ?_,
    h.nodup, ?_, ?_, ?_⟩
  · intro a; rw [hlog]; exact h.seen a
  · intro a; rw [hlog]; exact h.index a
  · intro a; rw [hlog]; exact h.missing a
  · rw [hs]; exact h.msg
  · rw [hs]; exact h.tags
  · rw [hs, ha]; exact h.valid

/-- The receive chains a state holds are well formed. -/
theorem last5_ok (h : GInv cv ids net g) (hC : C.Lawful) (b : Bool) :
    (∀ r ∈ last5 (g.full b), r.ep.pub.length = 32) ∧ ((last5 (g.full b)).map fun r => r.ep.pub).Nodup := by
  refine ⟨fun r hr => h.pub_len hC (last5_sub hr), ?_⟩
  rw [last5_map]
  exact (List.drop_sublist ..).nodup (h.pubs_nodup b)

/-- A message accepted before is refused as a duplicate. -/
theorem again (h : GInv cv ids net g) (hC : C.Lawful) {b : Bool} {i : Nat} {c : Ciphertext} {pt : Bytes} {s : SessionState}
    (hp : Party (ids b) (ids !b) (g.E (g.e b)) (g.n b) (last5 (g.full b)) s)
    (hi : (net.sent (!b))[i]? = some (c, pt)) (ha : i ∈ net.accepted b) (hl : net.remembered cv b (header c)) (seed : Bytes) :
    SessionCipher.decryptWithSessionState s c.inner seed = .error .duplicateMessage := by
  obtain ⟨t, k, h1, h2, h3, h4⟩ := h.locate hi
  have hlog := (h.mem_log hi).2 ha
  unfold Net.remembered at hl
  rw [h3] at hl hlog
  have ht : t < (g.full b).length := by
    refine Nat.lt_of_le_of_ne h1 ?_
    rintro rfl
    exact h.not_in_seen h2 (mem_log_seen hlog)
  have hpl := h.place ht hl
  have hr := List.getElem?_eq_getElem ht
  have hmem : (g.full b)[t] ∈ g.full b := List.getElem_mem ht
  have hep := h.ep b t _ hr
  obtain ⟨o1, o2⟩ := h.last5_ok hC b
  refine recv_duplicate hp o1 o2 (by rw [last5_get _ _ hpl]; exact hr) (by rw [hep]; exact h4) ?_ ?_ seed
  · rw [h.missing b _ hmem, hep]
    exact fun x => x.2 hlog
  · rw [h.index b _ hmem, hep]
    exact mem_log_lt hlog

/-- A new message within the limits is decrypted. -/
theorem receive (h : GInv cv ids net g) (hC : C.Lawful) {b : Bool} {i : Nat} {c : Ciphertext} {pt : Bytes} {s : SessionState}
    (hp : Party (ids b) (ids !b) (g.E (g.e b)) (g.n b) (last5 (g.full b)) s)
    (hi : (net.sent (!b))[i]? = some (c, pt)) (ha : i ∉ net.accepted b) (hl : net.inLimits cv b (header c))
    {seed : Bytes} (hseed : seed.length = 32) (hfresh : C.genPub (C.genPriv seed) ∉ net.keys) :
    ∃ s' g', SessionCipher.decryptWithSessionState s c.inner seed = .ok (pt, s') ∧
      Party (ids b) (ids !b) (g'.E (g'.e b)) (g'.n b) (last5 (g'.full b)) s' ∧
      (∀ a, a ≠ b → g'.E (g'.e a) = g.E (g.e a) ∧ g'.n a = g.n a ∧ g'.full a = g.full a) ∧ g.Extends net.keys g' ∧
      ∀ net' : Net, net'.sent = net.sent → net'.accepted = upd net.accepted b (net.accepted b ++ [i]) →
        net'.keys = C.genPub (C.genPriv seed) :: net.keys → GInv cv ids net' g' := by
  obtain ⟨t, k, h1, h2, h3, h4⟩ := h.locate hi
  have hlog := fun x => ha ((h.mem_log hi).1 x)
  obtain ⟨hl1, hl2⟩ := hl
  rw [h3] at hl1 hl2 hlog
  simp only at hl1 hl2
  obtain ⟨o1, o2⟩ := h.last5_ok hC b
  by_cases ht : t < (g.full b).length
  · have hpl := h.place ht (hl1 (h.in_seen ht))
    have hr := List.getElem?_eq_getElem ht
    have hmem : (g.full b)[t] ∈ g.full b := List.getElem_mem ht
    have hep := h.ep b t _ hr
    have hidx := h.index b _ hmem
    have hmis := h.missing b _ hmem
    have hnd := h.nodup b _ hmem
    generalize hrd : (g.full b)[t] = r at *
    have hh : header c = (r.ep.pub, k) := by rw [h3, hep]
    have hr5 : (last5 (g.full b))[t - ((g.full b).length - 5)]? = some r := by rw [last5_get _ _ hpl]; exact hr
    rw [← hep] at hlog hl2 h4
    have fin : ∀ (r' : Recv v) (s' : SessionState), SessionCipher.decryptWithSessionState s c.inner seed = .ok (pt, s') →
        Party (ids b) (ids !b) (g.E (g.e b)) (g.n b) ((last5 (g.full b)).set (t - ((g.full b).length - 5)) r') s' →
        r'.ep = r.ep → r'.index = max r.index (k + 1) →
        (∀ x, x ∈ r'.missing ↔ (x ∈ r.missing ∨ (r.index ≤ x ∧ x < k)) ∧ x ≠ k) → r'.missing.Nodup →
        ∃ s' g', SessionCipher.decryptWithSessionState s c.inner seed = .ok (pt, s') ∧
          Party (ids b) (ids !b) (g'.E (g'.e b)) (g'.n b) (last5 (g'.full b)) s' ∧
          (∀ a, a ≠ b → g'.E (g'.e a) = g.E (g.e a) ∧ g'.n a = g.n a ∧ g'.full a = g.full a) ∧ g.Extends net.keys g' ∧
          ∀ net' : Net, net'.sent = net.sent → net'.accepted = upd net.accepted b (net.accepted b ++ [i]) →
            net'.keys = C.genPub (C.genPriv seed) :: net.keys → GInv cv ids net' g' := by
      intro r' s' e1 e2 e3 e4 e5 e6
      refine ⟨s', { g with full := upd g.full b ((g.full b).set t r') }, e1, ?_, ?_,
        ⟨Nat.le_refl _, fun _ _ => rfl, fun j h1 h2 => absurd h2 (Nat.not_le.2 h1)⟩, ?_⟩
      · have hfb : upd g.full b ((g.full b).set t r') b = (g.full b).set t r' := by unfold upd; rw [if_pos rfl]
        unfold Ghost.e
        simp only
        rw [hfb, List.length_set]
        rw [last5_set _ _ _ hpl] at e2
        exact e2
      · intro a hab
        have : upd g.full b ((g.full b).set t r') a = g.full a := by unfold upd; rw [if_neg hab]
        unfold Ghost.e
        simp only
        rw [this]
        exact ⟨rfl, trivial, rfl⟩
      · intro net' hs ha' hk
        exact h.recvOld hi hr hh e3 e4 e5 e6 hs ha' fun x hx => by rw [hk]; exact List.mem_cons_of_mem _ hx
    by_cases hk : k < r.index
    · have hkm : k ∈ r.missing := (hmis k).2 ⟨hk, hlog⟩
      obtain ⟨s', e1, e2⟩ := recv_skipped hC.hmac_len (h.idsLen b) (h.idsLen !b) hp o1 o2 hr5 h4 hkm hk seed
      refine fin _ s' e1 e2 rfl ?_ ?_ (hnd.erase k)
      · simp only; omega
      · intro x
        simp only
        rw [hnd.mem_erase_iff]
        constructor
        · rintro ⟨x1, x2⟩; exact ⟨Or.inl x2, x1⟩
        · rintro ⟨x1 | x1, x2⟩
          · exact ⟨x2, x1⟩
          · omega
    · have hw : k ≤ r.index + 2000 := by rw [hidx]; exact hl2
      obtain ⟨s', e1, e2⟩ := recv_ahead hC.hmac_len (h.idsLen b) (h.idsLen !b) hp o1 o2 hr5 h4 (by omega) hw seed
      refine fin _ s' e1 e2 rfl ?_ ?_ ?_
      · simp only; omega
      · intro x
        simp only
        rw [List.mem_append, List.mem_range'_1]
        constructor
        · rintro (x1 | x1)
          · have := ((hmis x).1 x1).1
            exact ⟨Or.inl x1, by omega⟩
          · exact ⟨Or.inr (by omega), by omega⟩
        · rintro ⟨x1 | x1, x2⟩
          · exact Or.inl x1
          · exact Or.inr (by omega)
      · rw [List.nodup_append]
        refine ⟨hnd, List.nodup_range' .., ?_⟩
        intro x hx y hy
        have := ((hmis x).1 hx).1
        rw [List.mem_range'_1] at hy
        omega
  · obtain rfl : t = (g.full b).length := by omega
    have hesucc := h.e_succ b
    have htop : g.top = 2 * (g.full b).length + off b := by
      have := h.hi b
      omega
    rw [← htop] at h3 h4 hl2
    have hns := h.not_in_seen h2
    rw [← htop] at hns
    have h0 : nextCounter (net.log b) (g.E g.top).pub = 0 := nextCounter_absent fun x hx => hns (mem_log_seen hx)
    have hgE := h.good g.top (Nat.le_refl _)
    have hz := nextEpoch_good hC (g.E g.top) hseed
    have hyz := nextEpoch_next hC hgE hseed
    have hnx := h.next (g.e b) (by omega)
    have e1 : g.e b + 1 = g.top := by omega
    rw [e1] at hnx
    obtain ⟨s', d1, d2, d3⟩ := recv_new hC (h.idsLen b) (h.idsLen !b) hp (h.nlt b) (h.good _ (h.lo b)) hgE o1
      (last5_length _)
      (by
        intro r hr e
        apply hns
        rw [h.seen b]
        exact List.mem_map.2 ⟨r, last5_sub hr, e⟩)
      hnx h4 (by omega) (z := nextEpoch (g.E g.top) seed) rfl rfl hyz
    refine ⟨s', { g with
      E := upd g.E (g.top + 1) (nextEpoch (g.E g.top) seed), top := g.top + 1, n := upd g.n b 0,
      full := upd g.full b (g.full b ++ [⟨g.E g.top, k + 1, List.range' 0 k⟩]) }, d1, ?_, ?_, Ghost.extends_new hfresh .., ?_⟩
    · have hfb : upd g.full b (g.full b ++ [⟨g.E g.top, k + 1, List.range' 0 k⟩]) b =
          g.full b ++ [⟨g.E g.top, k + 1, List.range' 0 k⟩] := by unfold upd; rw [if_pos rfl]
      have hee : 2 * (g.full b ++ [(⟨g.E g.top, k + 1, List.range' 0 k⟩ : Recv v)]).length + off b - 1 = g.top + 1 := by
        rw [List.length_append, List.length_singleton]; omega
      unfold Ghost.e
      simp only
      rw [hfb, hee]
      rw [last5_append_self] at d2
      have hn0 : upd g.n b 0 b = 0 := by unfold upd; rw [if_pos rfl]
      have hE1 : upd g.E (g.top + 1) (nextEpoch (g.E g.top) seed) (g.top + 1) = nextEpoch (g.E g.top) seed := by
        unfold upd; rw [if_pos rfl]
      rw [hn0, hE1]
      exact d2
    · intro a hab
      have hf : upd g.full b (g.full b ++ [⟨g.E g.top, k + 1, List.range' 0 k⟩]) a = g.full a := by
        unfold upd; rw [if_neg hab]
      have hn : upd g.n b 0 a = g.n a := by unfold upd; rw [if_neg hab]
      have he : upd g.E (g.top + 1) (nextEpoch (g.E g.top) seed) (g.e a) = g.E (g.e a) := by
        unfold upd; rw [if_neg (by have := h.lo a; omega)]
      unfold Ghost.e at he ⊢
      simp only
      rw [hf, hn, he]
      exact ⟨rfl, rfl, rfl⟩
    · intro net' hs ha' hk
      exact h.recvNew hi htop h3 hz hyz hfresh hs ha' hk

end GInv
end
end Axolotl
