import Verif.Spec.InMemory
import Verif.Props.Size

/-!
# C65: the in-memory stores
-/

namespace Axolotl
open Spec
section
variable [C : Crypto]

/-! ## Dictionaries -/

section dict
variable {K V : Type} [DecidableEq K]

omit C in
theorem dict_get_set (d : Dict K V) (k : K) (v : V) : (d.set k v).get? = upd d.get? k (some v) := by
  funext j
  induction d with
  | nil =>
    simp only [Dict.set, Dict.get?, upd]
    by_cases h : j = k
    · subst h; simp
    · rw [if_neg h, if_neg fun e => h e.symm]
  | cons e d ih =>
    obtain ⟨i, u⟩ := e
    simp only [Dict.set]
    by_cases h : i = k
    · subst h
      rw [if_pos rfl]
      simp only [Dict.get?, upd]
      by_cases h' : j = i
      · subst h'; simp
      · rw [if_neg h', if_neg fun e => h' e.symm]
        rw [if_neg fun e => h' e.symm]
    · rw [if_neg h]
      simp only [Dict.get?]
      rw [ih]
      simp only [upd]
      by_cases h' : j = k
      · subst h'
        rw [if_neg h, if_pos rfl, if_pos rfl]
      · rw [if_neg h', if_neg h']

omit C in
theorem dict_none_iff (d : Dict K V) (k : K) : d.get? k = none ↔ k ∉ d.map Prod.fst := by
  induction d with
  | nil => simp [Dict.get?]
  | cons e d ih =>
    obtain ⟨i, u⟩ := e
    simp only [Dict.get?, List.map_cons, List.mem_cons, not_or]
    by_cases h : i = k
    · subst h; simp
    · rw [if_neg h, ih]
      exact ⟨fun h' => ⟨fun e => h e.symm, h'⟩, fun h' => h'.2⟩

omit C in
theorem dict_get_del (d : Dict K V) (hd : DistinctKeys d) (k : K) : (d.del k).get? = upd d.get? k none := by
  funext j
  induction d with
  | nil => simp [Dict.del, Dict.get?, upd]
  | cons e d ih =>
    obtain ⟨i, u⟩ := e
    have hd' : i ∉ d.map Prod.fst ∧ DistinctKeys d := List.nodup_cons.1 hd
    simp only [Dict.del]
    by_cases h : i = k
    · subst h
      rw [if_pos rfl]
      simp only [Dict.get?, upd]
      by_cases h' : j = i
      · subst h'
        rw [if_pos rfl]
        exact (dict_none_iff d j).2 hd'.1
      · rw [if_neg h', if_neg fun e => h' e.symm]
    · rw [if_neg h]
      simp only [Dict.get?]
      rw [ih hd'.2]
      simp only [upd]
      by_cases h' : j = k
      · subst h'
        rw [if_neg h, if_pos rfl, if_pos rfl]
      · rw [if_neg h', if_neg h']

omit C in
theorem dict_mem_iff (d : Dict K V) (hd : DistinctKeys d) (k : K) (v : V) : d.get? k = some v ↔ (k, v) ∈ d := by
  induction d with
  | nil => simp [Dict.get?]
  | cons e d ih =>
    obtain ⟨i, u⟩ := e
    have hd' : i ∉ d.map Prod.fst ∧ DistinctKeys d := List.nodup_cons.1 hd
    simp only [Dict.get?, List.mem_cons, Prod.mk.injEq]
    by_cases h : i = k
    · subst h
      rw [if_pos rfl]
      constructor
      · intro e; exact .inl ⟨rfl, (Option.some.inj e).symm⟩
      · rintro (⟨_, rfl⟩ | h)
        · rfl
        · exact absurd (List.mem_map_of_mem (f := Prod.fst) h) hd'.1
    · rw [if_neg h, ih hd'.2]
      exact ⟨.inr, fun h' => h'.elim (fun e => absurd e.1.symm h) id⟩

omit C in
/-- Writing: an existing key keeps its place, a new one goes to the end. -/
theorem dict_set_exact (d : Dict K V) (k : K) (v : V) :
    (k ∉ d.map Prod.fst ∧ d.set k v = d ++ [(k, v)]) ∨
    ∃ x y u, d = x ++ (k, u) :: y ∧ k ∉ x.map Prod.fst ∧ d.set k v = x ++ (k, v) :: y := by
  induction d with
  | nil => exact .inl ⟨by simp, rfl⟩
  | cons e d ih =>
    obtain ⟨i, u⟩ := e
    simp only [Dict.set]
    by_cases h : i = k
    · subst h
      rw [if_pos rfl]
      exact .inr ⟨[], d, u, rfl, by simp, rfl⟩
    · rw [if_neg h]
      rcases ih with ⟨h1, h2⟩ | ⟨x, y, u', h1, h2, h3⟩
      · refine .inl ⟨?_, by rw [h2]; rfl⟩
        simp only [List.map_cons, List.mem_cons, not_or]
        exact ⟨fun e => h e.symm, h1⟩
      · refine .inr ⟨(i, u) :: x, y, u', by rw [h1]; rfl, ?_, by rw [h3]; rfl⟩
        simp only [List.map_cons, List.mem_cons, not_or]
        exact ⟨fun e => h e.symm, h2⟩

omit C in
theorem dict_set_distinct (d : Dict K V) (hd : DistinctKeys d) (k : K) (v : V) : DistinctKeys (d.set k v) := by
  rcases dict_set_exact d k v with ⟨h1, h2⟩ | ⟨x, y, u, h1, _, h3⟩
  · rw [h2]
    unfold DistinctKeys
    rw [List.map_append, List.nodup_append]
    refine ⟨hd, by simp, ?_⟩
    intro a ha b hb
    simp only [List.map_cons, List.map_nil, List.mem_singleton] at hb
    subst hb
    intro e
    subst e
    exact h1 ha
  · rw [h3]
    rw [h1] at hd
    unfold DistinctKeys at hd ⊢
    simpa using hd

omit C in
theorem dict_del_sublist (d : Dict K V) (k : K) : (d.del k).Sublist d := by
  induction d with
  | nil => exact .slnil
  | cons e d ih =>
    obtain ⟨i, u⟩ := e
    simp only [Dict.del]
    split
    · exact List.sublist_cons_self ..
    · exact ih.cons_cons _

omit C in
theorem dict_del_distinct (d : Dict K V) (hd : DistinctKeys d) (k : K) : DistinctKeys (d.del k) :=
  List.Nodup.sublist ((dict_del_sublist d k).map Prod.fst) hd

omit C in
theorem dict_del_exact {x y : Dict K V} {k : K} {v : V} (hx : k ∉ x.map Prod.fst) :
    Dict.del (x ++ (k, v) :: y) k = x ++ y := by
  induction x with
  | nil => simp [Dict.del]
  | cons e x ih =>
    obtain ⟨i, u⟩ := e
    simp only [List.map_cons, List.mem_cons, not_or] at hx
    simp only [List.cons_append, Dict.del]
    rw [if_neg fun e => hx.1 e.symm, ih hx.2]

end dict

/-- The keys of all four dictionaries are distinct. -/
structure Tidy (m : MemStore) : Prop where
  trustedKeys : DistinctKeys m.trustedKeys
  preKeys : DistinctKeys m.preKeys
  signedPreKeys : DistinctKeys m.signedPreKeys
  sessions : DistinctKeys m.sessions

omit C in
theorem tidy_new (k : KeyPair) (i : Int) : Tidy (MemStore.new k i) := ⟨.nil, .nil, .nil, .nil⟩

omit C in
theorem deleteLoop_cases (n : String) (d : Dict Address Bytes) (l : List Address) :
    ((∀ k ∈ l, k.1 ≠ n) ∧ MemStore.deleteLoop n d l = (.ok (), d)) ∨
    ∃ x k y, l = x ++ k :: y ∧ (∀ j ∈ x, j.1 ≠ n) ∧ k.1 = n ∧ MemStore.deleteLoop n d l = (.error .runtimeError, d.del k) := by
  induction l with
  | nil => exact .inl ⟨by simp, rfl⟩
  | cons k l ih =>
    simp only [MemStore.deleteLoop]
    by_cases h : k.1 = n
    · rw [if_pos h]
      exact .inr ⟨[], k, l, rfl, by simp, h, rfl⟩
    · rw [if_neg h]
      rcases ih with ⟨h1, h2⟩ | ⟨x, j, y, h1, h2, h3, h4⟩
      · refine .inl ⟨?_, h2⟩
        intro j hj
        rcases List.mem_cons.1 hj with rfl | hj
        · exact h
        · exact h1 j hj
      · refine .inr ⟨k :: x, j, y, by rw [h1]; rfl, ?_, h3, h4⟩
        intro i hi
        rcases List.mem_cons.1 hi with rfl | hi
        · exact h
        · exact h2 i hi

omit C in
theorem map_split {α β : Type} {f : α → β} {l : List α} {x y : List β} {b : β} (h : l.map f = x ++ b :: y) :
    ∃ u a v, l = u ++ a :: v ∧ u.map f = x ∧ f a = b ∧ v.map f = y := by
  obtain ⟨u, w, h1, h2, h3⟩ := List.map_eq_append_iff.1 h
  obtain ⟨a, v, h4, h5, h6⟩ := List.map_eq_cons_iff.1 h3
  exact ⟨u, a, v, by rw [h1, h4], h2, h5, h6⟩

omit C in
/-- **C65.** What `deleteAllSessions` really does: if the store holds sessions with that name, the one stored first is deleted
and `RuntimeError` is raised; all others stay. -/
theorem C65_deleteAll (m : MemStore) (hm : DistinctKeys m.sessions) (n : String) :
    ((∀ e ∈ m.sessions, e.1.1 ≠ n) ∧ m.deleteAllSessions n = (.ok (), m)) ∨
    ∃ x a b y, m.sessions = x ++ (a, b) :: y ∧ (∀ e ∈ x, e.1.1 ≠ n) ∧ a.1 = n ∧
      m.deleteAllSessions n = (.error .runtimeError, { m with sessions := x ++ y }) := by
  unfold MemStore.deleteAllSessions
  rcases deleteLoop_cases n m.sessions m.sessions.keys with ⟨h1, h2⟩ | ⟨x, k, y, h1, h2, h3, h4⟩
  · refine .inl ⟨fun e he => h1 e.1 (List.mem_map_of_mem (f := Prod.fst) he), ?_⟩
    rw [h2]
  · obtain ⟨u, ⟨a, b⟩, v, e1, e2, e3, e4⟩ := map_split h1
    have e3 : a = k := e3
    subst e3
    refine .inr ⟨u, a, b, v, e1, ?_, h3, ?_⟩
    · intro e he
      exact h2 e.1 (by rw [← e2]; exact List.mem_map_of_mem (f := Prod.fst) he)
    · rw [h4]
      have hn : a ∉ u.map Prod.fst := by
        unfold DistinctKeys at hm
        rw [e1, List.map_append, List.nodup_append] at hm
        intro ha
        exact hm.2.2 a ha a (by simp) rfl
      rw [e1, dict_del_exact hn]

omit C in
/-- **C65.** `removeSignedPreKey` never removes anything: it always raises `TypeError`. -/
theorem C65_removeSigned (m : MemStore) (i : Nat) : m.removeSignedPreKey i = (.error .typeError, m) := rfl

omit C in
/-- **C65.** Removing what is not there: a one-time prekey silently, a session or (in the part) a signed prekey with
`KeyError`; nothing changes. -/
theorem C65_missing (m : MemStore) :
    (∀ i, i ∉ m.preKeys.map Prod.fst → m.removePreKey i = (.ok (), m)) ∧
    (∀ a, a ∉ m.sessions.map Prod.fst → m.deleteSession a = (.error .keyError, m)) ∧
    (∀ i, i ∉ m.signedPreKeys.map Prod.fst → m.removeSignedPreKeyPart i = (.error .keyError, m)) := by
  refine ⟨fun i h => ?_, fun a h => ?_, fun i h => ?_⟩
  · unfold MemStore.removePreKey Dict.contains
    rw [(dict_none_iff _ _).2 h]; rfl
  · unfold MemStore.deleteSession Dict.contains
    rw [(dict_none_iff _ _).2 h]; rfl
  · unfold MemStore.removeSignedPreKeyPart Dict.contains
    rw [(dict_none_iff _ _).2 h]; rfl

omit C in
/-- **C65.** `getSubDeviceSessions` lists every device of the name with a stored session once, and no other. -/
theorem C65_devices (m : MemStore) (hm : DistinctKeys m.sessions) (n : String) :
    ∃ l, m.getSubDeviceSessions n = (.ok l, m) ∧ l.Nodup ∧ ∀ d, d ∈ l ↔ ∃ b, ((n, d), b) ∈ m.sessions := by
  refine ⟨_, rfl, ?_, ?_⟩
  · have h1 : (m.sessions.keys.filter fun k => k.1 = n).Nodup := List.Nodup.sublist List.filter_sublist hm
    have h2 : ∀ a ∈ (m.sessions.keys.filter fun k => k.1 = n), ∀ b ∈ (m.sessions.keys.filter fun k => k.1 = n),
        a.2 = b.2 → a = b := by
      intro a ha b hb e
      have ea := of_decide_eq_true (List.mem_filter.1 ha).2
      have eb := of_decide_eq_true (List.mem_filter.1 hb).2
      exact Prod.ext (ea.trans eb.symm) e
    generalize (m.sessions.keys.filter fun k => k.1 = n) = l at h1 h2
    induction l with
    | nil => exact .nil
    | cons a l ih =>
      rw [List.nodup_cons] at h1
      rw [List.map_cons, List.nodup_cons]
      refine ⟨?_, ih h1.2 fun x hx y hy => h2 x (List.mem_cons_of_mem _ hx) y (List.mem_cons_of_mem _ hy)⟩
      intro hmem
      obtain ⟨b, hb, e⟩ := List.mem_map.1 hmem
      have := h2 b (List.mem_cons_of_mem _ hb) a (List.mem_cons_self ..) e
      subst this
      exact h1.1 hb
  · intro d
    simp only [List.mem_map, List.mem_filter, Dict.keys, decide_eq_true_eq]
    constructor
    · rintro ⟨⟨a, e⟩, ⟨⟨⟨k, b⟩, h1, h2⟩, h3⟩, h4⟩
      simp only at h2 h3 h4
      subst h2; subst h3; subst h4
      exact ⟨b, h1⟩
    · rintro ⟨b, h⟩
      exact ⟨(n, d), ⟨⟨((n, d), b), h, rfl⟩, rfl⟩, rfl⟩

omit C in
/-- **C65.** Storing a session under an address that has one replaces its bytes in place; under a new address it goes to the
end.  Nothing else changes. -/
theorem C65_store (m : MemStore) (a : Address) (r : SessionRecord) :
    (a ∉ m.sessions.map Prod.fst ∧ m.storeSession a r = (.ok (), { m with sessions := m.sessions ++ [(a, r.serialize)] })) ∨
    ∃ x y b, m.sessions = x ++ (a, b) :: y ∧ a ∉ x.map Prod.fst ∧
      m.storeSession a r = (.ok (), { m with sessions := x ++ (a, r.serialize) :: y }) := by
  unfold MemStore.storeSession
  rcases dict_set_exact m.sessions a r.serialize with ⟨h1, h2⟩ | ⟨x, y, b, h1, h2, h3⟩
  · exact .inl ⟨h1, by rw [h2]⟩
  · exact .inr ⟨x, y, b, h1, h2, by rw [h3]⟩

/-! ## Every history amounts to one of C63 -/

omit C in
theorem tidy_write {m : MemStore} (h : Tidy m) (x : Write) : Tidy (m.write x) := by
  cases x with
  | session a r => exact ⟨h.trustedKeys, h.preKeys, h.signedPreKeys, dict_set_distinct _ h.sessions _ _⟩
  | identity n k => exact ⟨dict_set_distinct _ h.trustedKeys _ _, h.preKeys, h.signedPreKeys, h.sessions⟩
  | removePreKey i =>
    simp only [MemStore.write, MemStore.removePreKey]
    split
    · exact ⟨h.trustedKeys, dict_del_distinct _ h.preKeys _, h.signedPreKeys, h.sessions⟩
    · exact h

omit C in
theorem tidy_op {m : MemStore} (h : Tidy m) (o : MemOp) : Tidy (o.run m).2 := by
  cases o with
  | storePreKey i r => exact ⟨h.trustedKeys, dict_set_distinct _ h.preKeys _ _, h.signedPreKeys, h.sessions⟩
  | removePreKey i => exact tidy_write h (.removePreKey i)
  | storeSignedPreKey i r => exact ⟨h.trustedKeys, h.preKeys, dict_set_distinct _ h.signedPreKeys _ _, h.sessions⟩
  | removeSignedPreKey i => exact h
  | removeSignedPreKeyPart i =>
    simp only [MemOp.run, MemStore.removeSignedPreKeyPart]
    split
    · exact ⟨h.trustedKeys, h.preKeys, dict_del_distinct _ h.signedPreKeys _, h.sessions⟩
    · exact h
  | saveIdentity n k => exact tidy_write h (.identity n k)
  | deleteSession a =>
    simp only [MemOp.run, MemStore.deleteSession]
    split
    · exact ⟨h.trustedKeys, h.preKeys, h.signedPreKeys, dict_del_distinct _ h.sessions _⟩
    · exact h
  | deleteAllSessions n =>
    simp only [MemOp.run, MemStore.deleteAllSessions]
    refine ⟨h.trustedKeys, h.preKeys, h.signedPreKeys, ?_⟩
    rcases deleteLoop_cases n m.sessions m.sessions.keys with ⟨_, h2⟩ | ⟨_, _, _, _, _, _, h4⟩
    · rw [h2]; exact h.sessions
    · rw [h4]; exact dict_del_distinct _ h.sessions _

theorem tidy_step {m : MemStore} (h : Tidy m) (x : MemStep) : Tidy (x.next m) := by
  cases x with
  | app o => exact tidy_op h o
  | call c =>
    show Tidy ((c.run m.bytes.view).writes.foldl MemStore.write m)
    generalize (c.run m.bytes.view).writes = ws
    induction ws generalizing m with
    | nil => exact h
    | cons x ws ih => exact ih (tidy_write h x)

omit C in
theorem upd_none_same {K V : Type} [DecidableEq K] {f : K → Option V} {k : K} (h : f k = none) : upd f k none = f := by
  funext j
  unfold upd
  split
  · rename_i e; rw [e, h]
  · rfl

omit C in
theorem not_contains {K V : Type} [DecidableEq K] {d : Dict K V} {k : K} (h : ¬ d.contains k = true) : d.get? k = none := by
  unfold Dict.contains at h
  cases hk : d.get? k with
  | none => rfl
  | some v => rw [hk] at h; exact absurd rfl h

omit C in
theorem write_bytes {m : MemStore} (h : Tidy m) (x : Write) : (m.write x).bytes = m.bytes.apply x := by
  cases x with
  | session a r => simp only [MemStore.write, MemStore.storeSession, MemStore.bytes, ByteWorld.apply, dict_get_set]
  | identity n k => simp only [MemStore.write, MemStore.saveIdentity, MemStore.bytes, ByteWorld.apply, dict_get_set]
  | removePreKey i =>
    simp only [MemStore.write, MemStore.removePreKey]
    split
    · simp only [MemStore.bytes, ByteWorld.apply, dict_get_del _ h.preKeys]
    · rename_i hc
      simp only [MemStore.bytes, ByteWorld.apply, upd_none_same (not_contains hc)]

theorem call_bytes {m : MemStore} (h : Tidy m) (c : Call) : ((MemStep.call c).next m).bytes = c.nextB m.bytes := by
  show ((c.run m.bytes.view).writes.foldl MemStore.write m).bytes = (c.run m.bytes.view).writes.foldl ByteWorld.apply m.bytes
  generalize (c.run m.bytes.view).writes = ws
  induction ws generalizing m with
  | nil => rfl
  | cons x ws ih =>
    rw [List.foldl_cons, List.foldl_cons, ih (tidy_write h x), write_bytes h]

omit C in
theorem means_bytes {m : MemStore} (h : Tidy m) {o : MemOp} {os : List StoreOp} (hm : Means m o os) :
    (o.run m).2.bytes = os.foldl StoreOp.nextB m.bytes := by
  cases hm with
  | storePreKey => simp only [MemOp.run, MemStore.storePreKey, MemStore.bytes, List.foldl_cons, List.foldl_nil, StoreOp.nextB, dict_get_set]
  | removePreKey => exact write_bytes h (.removePreKey _)
  | storeSignedPreKey =>
    simp only [MemOp.run, MemStore.storeSignedPreKey, MemStore.bytes, List.foldl_cons, List.foldl_nil, StoreOp.nextB, dict_get_set]
  | removeSignedPreKey => rfl
  | removeSignedPreKeyPart =>
    simp only [MemOp.run, MemStore.removeSignedPreKeyPart, List.foldl_cons, List.foldl_nil, StoreOp.nextB]
    split
    · simp only [MemStore.bytes, dict_get_del _ h.signedPreKeys]
    · rename_i hc
      simp only [MemStore.bytes, upd_none_same (not_contains hc)]
  | saveIdentity => exact write_bytes h (.identity _ _)
  | deleteSession =>
    simp only [MemOp.run, MemStore.deleteSession, List.foldl_cons, List.foldl_nil, StoreOp.nextB]
    split
    · simp only [MemStore.bytes, dict_get_del _ h.sessions]
    · rename_i hc
      simp only [MemStore.bytes, upd_none_same (not_contains hc)]
  | @deleteNone n hn =>
    rcases C65_deleteAll m h.sessions n with ⟨_, h2⟩ | ⟨x, a, b, y, h1, _, h3, _⟩
    · show (m.deleteAllSessions n).2.bytes = m.bytes
      rw [h2]
    · exact absurd h3 (hn (a, b) (by rw [h1]; simp))
  | @deleteFirst n x y a b h1 h2 h3 =>
    show (m.deleteAllSessions n).2.bytes = _
    have hn : a ∉ x.map Prod.fst := by
      have hs := h.sessions
      unfold DistinctKeys at hs
      rw [h1, List.map_append, List.nodup_append] at hs
      intro ha
      exact hs.2.2 a ha a (by simp) rfl
    have hd : (m.deleteAllSessions n).2 = { m with sessions := m.sessions.del a } := by
      unfold MemStore.deleteAllSessions
      rcases deleteLoop_cases n m.sessions m.sessions.keys with ⟨g1, _⟩ | ⟨x', k, y', g1, g2, g3, g4⟩
      · exact absurd h3 (g1 a (by rw [h1]; simp [Dict.keys]))
      · rw [g4]
        have : k = a := by
          have e : x.map Prod.fst ++ a :: y.map Prod.fst = x' ++ k :: y' := by
            rw [← g1, h1]; simp [Dict.keys]
          have g5 : ∀ j ∈ x.map Prod.fst, j.1 ≠ n := by
            intro j hj
            obtain ⟨e, he, rfl⟩ := List.mem_map.1 hj
            exact h2 e he
          clear g1 hn h1 g4 h h2
          generalize x.map Prod.fst = p, y.map Prod.fst = q at e g5
          induction p generalizing x' with
          | nil =>
            cases x' with
            | nil => exact ((List.cons.inj e).1).symm
            | cons z x' =>
              obtain ⟨e1, _⟩ := List.cons.inj e
              subst e1
              exact absurd h3 (g2 a (List.mem_cons_self ..))
          | cons z p ih =>
            cases x' with
            | nil =>
              obtain ⟨e1, _⟩ := List.cons.inj e
              subst e1
              exact absurd g3 (g5 z (List.mem_cons_self ..))
            | cons z' x' =>
              obtain ⟨_, e2⟩ := List.cons.inj e
              exact ih x' (fun j hj => g2 j (List.mem_cons_of_mem _ hj)) e2 fun j hj => g5 j (List.mem_cons_of_mem _ hj)
        rw [this]
    rw [hd]
    simp only [MemStore.bytes, List.foldl_cons, List.foldl_nil, StoreOp.nextB, dict_get_del _ h.sessions]

omit C in
theorem means_exists (m : MemStore) (hm : DistinctKeys m.sessions) (o : MemOp) : ∃ os, Means m o os := by
  cases o with
  | storePreKey i r => exact ⟨_, .storePreKey⟩
  | removePreKey i => exact ⟨_, .removePreKey⟩
  | storeSignedPreKey i r => exact ⟨_, .storeSignedPreKey⟩
  | removeSignedPreKey i => exact ⟨_, .removeSignedPreKey⟩
  | removeSignedPreKeyPart i => exact ⟨_, .removeSignedPreKeyPart⟩
  | saveIdentity n k => exact ⟨_, .saveIdentity⟩
  | deleteSession a => exact ⟨_, .deleteSession⟩
  | deleteAllSessions n =>
    rcases C65_deleteAll m hm n with ⟨h1, _⟩ | ⟨x, a, b, y, h1, h2, h3, _⟩
    · exact ⟨_, .deleteNone h1⟩
    · exact ⟨_, .deleteFirst h1 h2 h3⟩

theorem tidy_after {m : MemStore} (h : Tidy m) (hs : List MemStep) : Tidy (MemStep.after m hs) := by
  induction hs generalizing m with
  | nil => exact h
  | cons x hs ih => exact ih (tidy_step h x)

/-- **C65.** In every store a program can get to, no dictionary has a key twice. -/
theorem C65_distinct (k : KeyPair) (reg : Int) (hs : List MemStep) :
    DistinctKeys (MemStep.after (.new k reg) hs).trustedKeys ∧ DistinctKeys (MemStep.after (.new k reg) hs).preKeys ∧
    DistinctKeys (MemStep.after (.new k reg) hs).signedPreKeys ∧ DistinctKeys (MemStep.after (.new k reg) hs).sessions :=
  have h := tidy_after (tidy_new k reg) hs
  ⟨h.trustedKeys, h.preKeys, h.signedPreKeys, h.sessions⟩

theorem amounts_exists {m : MemStore} (h : Tidy m) (hs : List MemStep) : ∃ ss, Amounts m hs ss := by
  induction hs generalizing m with
  | nil => exact ⟨_, .nil⟩
  | cons x hs ih =>
    obtain ⟨ss, hss⟩ := ih (tidy_step h x)
    cases x with
    | call c => exact ⟨_, .call hss⟩
    | app o =>
      obtain ⟨os, hos⟩ := means_exists m h.sessions o
      exact ⟨_, .app hos hss⟩

theorem afterB_ops (b : ByteWorld) (os : List StoreOp) (ss : List Step) :
    Step.afterB b (os.map Step.app ++ ss) = Step.afterB (os.foldl StoreOp.nextB b) ss := by
  induction os generalizing b with
  | nil => rfl
  | cons o os ih => exact ih (o.nextB b)

theorem repliesB_ops (b : ByteWorld) (os : List StoreOp) (ss : List Step) :
    Step.repliesB b (os.map Step.app ++ ss) = Step.repliesB (os.foldl StoreOp.nextB b) ss := by
  induction os generalizing b with
  | nil => rfl
  | cons o os ih => exact ih (o.nextB b)

theorem amounts_bytes {m : MemStore} {hs : List MemStep} {ss : List Step} (ha : Amounts m hs ss) :
    Tidy m → (MemStep.after m hs).bytes = Step.afterB m.bytes ss ∧ MemStep.replies m hs = Step.repliesB m.bytes ss := by
  induction ha with
  | nil => intro _; exact ⟨rfl, rfl⟩
  | @call m c hs ss _ ih =>
    intro h
    obtain ⟨h1, h2⟩ := ih (tidy_step h _)
    rw [call_bytes h] at h1 h2
    refine ⟨h1, ?_⟩
    show _ :: _ = _ :: _
    rw [h2]
  | @app m o os hs ss hos _ ih =>
    intro h
    obtain ⟨h1, h2⟩ := ih (tidy_step h _)
    have h3 : ((MemStep.app o).next m).bytes = _ := means_bytes h hos
    rw [h3] at h1 h2
    rw [afterB_ops, repliesB_ops]
    exact ⟨h1, h2⟩

/-- What the application stores in the history is made by constructors, if it is in the original one. -/
theorem amounts_ops {m : MemStore} {hs : List MemStep} {ss : List Step} (ha : Amounts m hs ss) :
    callsOf ss = callsIn hs ∧ (∀ x ∈ ss, Step.Sane x) ∧ ((∀ x ∈ hs, MadeByConstructors x) → ∀ x ∈ ss, StoresMade x) := by
  induction ha with
  | nil => exact ⟨rfl, by simp, by simp⟩
  | @call m c hs ss _ ih =>
    refine ⟨by show c :: _ = c :: _; rw [ih.1], ?_, ?_⟩
    · intro x hx
      rcases List.mem_cons.1 hx with rfl | hx
      · trivial
      · exact ih.2.1 x hx
    · intro h x hx
      rcases List.mem_cons.1 hx with rfl | hx
      · trivial
      · exact ih.2.2 (fun y hy => h y (List.mem_cons_of_mem _ hy)) x hx
  | @app m o os hs ss hos _ ih =>
    have hc : callsOf (os.map Step.app ++ ss) = callsOf ss := by
      clear hos
      induction os with
      | nil => rfl
      | cons o os ih => exact ih
    refine ⟨hc.trans ih.1, ?_, ?_⟩
    · intro x hx
      rcases List.mem_append.1 hx with hx | hx
      · cases hos <;> simp only [List.map_cons, List.map_nil, List.mem_singleton, List.not_mem_nil] at hx <;>
          first | (subst hx; trivial) | exact hx.elim
      · exact ih.2.1 x hx
    · intro h x hx
      rcases List.mem_append.1 hx with hx | hx
      · have ho := h _ (List.mem_cons_self ..)
        cases hos <;> simp only [List.map_cons, List.map_nil, List.mem_singleton, List.not_mem_nil] at hx <;>
          first | (subst hx; exact ho) | exact hx.elim
      · exact ih.2.2 (fun y hy => h y (List.mem_cons_of_mem _ hy)) x hx

/-- **C65.** Whatever a program does with a new store, the replies of the library and the bytes in the dictionaries are those
of a history of C63 on stores of records: the one it `Amounts` to, in which every method does what its name says except
`deleteAllSessions` (deletes only the session stored first) and `removeSignedPreKey` (does nothing). -/
theorem C65_history (hC : C.Lawful) (k : KeyPair) (reg : Int) (hid : k.pub.length = 32) (hs : List MemStep)
    (hz : ∀ c ∈ callsIn hs, Sized c) (hm : ∀ x ∈ hs, MadeByConstructors x) :
    ∃ ss, Amounts (.new k reg) hs ss ∧ MemStep.replies (.new k reg) hs = Step.replies (.new k reg) ss ∧
      (MemStep.after (.new k reg) hs).bytes = (Step.after (.new k reg) ss).toBytes := by
  obtain ⟨ss, hss⟩ := amounts_exists (tidy_new k reg) hs
  obtain ⟨h1, h2⟩ := amounts_bytes hss (tidy_new k reg)
  obtain ⟨h3, h4, h5⟩ := amounts_ops hss
  have h6 := C64_bytes hC (World.new k reg) (fun _ => rfl) hid ⟨nofun, nofun⟩ ss h4 (by rw [h3]; exact hz) (h5 hm)
  have h7 : (MemStore.new k reg).bytes = (World.new k reg).toBytes := rfl
  rw [h7] at h1 h2
  exact ⟨ss, hss, h2.trans h6.1, h1.trans h6.2⟩

omit C in
theorem amounts_unique_aux {m : MemStore} {o : MemOp} {p q : List StoreOp} (hp : Means m o p) (hq : Means m o q) : p = q := by
  cases hp with
  | deleteNone h =>
    cases hq with
    | deleteNone => rfl
    | @deleteFirst _ x y a b h1 _ h3 => exact absurd h3 (h (a, b) (by rw [h1]; simp))
  | @deleteFirst n x y a b h1 h2 h3 =>
    cases hq with
    | deleteNone h => exact absurd h3 (h (a, b) (by rw [h1]; simp))
    | @deleteFirst _ x' y' a' b' g1 g2 g3 =>
      rw [h1] at g1
      have : a = a' := by
        clear h1
        induction x generalizing x' with
        | nil =>
          cases x' with
          | nil => exact (Prod.mk.inj (List.cons.inj g1).1).1
          | cons z x' =>
            obtain ⟨e1, _⟩ := List.cons.inj g1
            subst e1
            exact absurd h3 (g2 _ (List.mem_cons_self ..))
        | cons z x ih =>
          cases x' with
          | nil =>
            obtain ⟨e1, _⟩ := List.cons.inj g1
            subst e1
            exact absurd g3 (h2 _ (List.mem_cons_self ..))
          | cons z' x' =>
            obtain ⟨_, e2⟩ := List.cons.inj g1
            exact ih (fun j hj => h2 j (List.mem_cons_of_mem _ hj)) e2 (fun j hj => g2 j (List.mem_cons_of_mem _ hj))
      rw [this]
  | _ => cases hq; rfl

/-- **C65.** There is only one such history. -/
theorem C65_unique {m : MemStore} {hs : List MemStep} {p q : List Step} (hp : Amounts m hs p) (hq : Amounts m hs q) : p = q := by
  induction hp generalizing q with
  | nil => cases hq; rfl
  | call _ ih =>
    cases hq with
    | call h => rw [ih h]
  | app ho _ ih =>
    cases hq with
    | app ho' h => rw [ih h, amounts_unique_aux ho ho']

/-- **C65.** Loading never fails to parse: on every store a program can get to, the loading methods give what is in the stores
of records of `C65_history`. -/
theorem C65_loads (hC : C.Lawful) (k : KeyPair) (reg : Int) (hid : k.pub.length = 32) (hs : List MemStep)
    (hz : ∀ c ∈ callsIn hs, Sized c) (hm : ∀ x ∈ hs, MadeByConstructors x) :
    ∃ ss, Amounts (.new k reg) hs ss ∧
      (∀ a, (MemStep.after (.new k reg) hs).loadSession a =
        (.ok ((Step.after (.new k reg) ss).loadSession a), MemStep.after (.new k reg) hs)) ∧
      (∀ a, (MemStep.after (.new k reg) hs).containsSession a =
        (.ok ((Step.after (.new k reg) ss).sessions a).isSome, MemStep.after (.new k reg) hs)) ∧
      (∀ i, (MemStep.after (.new k reg) hs).loadPreKey i =
        (match (Step.after (.new k reg) ss).preKeys i with
          | some p => .ok p
          | none => .error (.lib .invalidKeyId), MemStep.after (.new k reg) hs)) ∧
      (∀ i, (MemStep.after (.new k reg) hs).containsPreKey i =
        (.ok ((Step.after (.new k reg) ss).preKeys i).isSome, MemStep.after (.new k reg) hs)) ∧
      (∀ i, (MemStep.after (.new k reg) hs).loadSignedPreKey i =
        (match (Step.after (.new k reg) ss).signedPreKeys i with
          | some p => .ok p
          | none => .error (.lib .invalidKeyId), MemStep.after (.new k reg) hs)) ∧
      (∀ i, (MemStep.after (.new k reg) hs).containsSignedPreKey i =
        (.ok ((Step.after (.new k reg) ss).signedPreKeys i).isSome, MemStep.after (.new k reg) hs)) ∧
      (∃ l, (MemStep.after (.new k reg) hs).loadSignedPreKeys = (.ok l, MemStep.after (.new k reg) hs) ∧
        ∀ p, p ∈ l ↔ ∃ i, (Step.after (.new k reg) ss).signedPreKeys i = some p) ∧
      (∀ n key, (MemStep.after (.new k reg) hs).isTrustedIdentity n key =
        (.ok (match (Step.after (.new k reg) ss).identities n with
          | some j => decide (j = key)
          | none => true), MemStep.after (.new k reg) hs)) := by
  obtain ⟨ss, hss, _, hb⟩ := C65_history hC k reg hid hs hz hm
  obtain ⟨h3, h4, h5⟩ := amounts_ops hss
  have hsmall : ∀ k' a r, (Step.after (World.new k reg) (ss.take k')).sessions a = some r →
      r.Ok ∧ r.serialize.length < 2 ^ 64 := by
    intro k' a r h
    refine ⟨steps_all stateOk_inv (World.new k reg) (fun _ => rfl) _ a r h, ?_⟩
    have := C64_absolute hC (World.new k reg) (fun _ => rfl) hid (ss.take k') (fun x hx => h4 x (List.mem_of_mem_take hx))
      (fun c hc => hz c (by rw [← h3]; exact callsOf_take ss k' c hc)) a r h
    omega
  have hv := (byteStore_steps ss (World.new k reg) ⟨nofun, nofun⟩ (h5 hm) hsmall).2.2
  have ht := tidy_after (tidy_new k reg) hs
  refine ⟨ss, hss, ?_⟩
  generalize MemStep.after (.new k reg) hs = m at hb ht
  generalize Step.after (World.new k reg) ss = w at hb hv hsmall
  have es : m.sessions.get? = _ := congrArg ByteWorld.sessions hb
  have ep : m.preKeys.get? = _ := congrArg ByteWorld.preKeys hb
  have eg : m.signedPreKeys.get? = _ := congrArg ByteWorld.signedPreKeys hb
  have ei : m.trustedKeys.get? = _ := congrArg ByteWorld.identities hb
  have vs : ∀ a, _ := fun a => congrFun (congrArg World.sessions hv) a
  have vp : ∀ a, _ := fun a => congrFun (congrArg World.preKeys hv) a
  have vg : ∀ a, _ := fun a => congrFun (congrArg World.signedPreKeys hv) a
  have pg : ∀ i p, w.signedPreKeys i = some p → SignedPreKeyRecord.ofSerialized p.serialize = .ok p := by
    intro i p hp
    have := vg i
    simp only [ByteWorld.view, World.toBytes, normal, hp, Option.map_some, ByteWorld.parsed] at this
    split at this
    · rename_i e
      rw [Option.some.inj this] at e
      exact e
    · cases this
  refine ⟨fun a => ?_, fun a => ?_, fun i => ?_, fun i => ?_, fun i => ?_, fun i => ?_, ?_, fun n key => ?_⟩
  · unfold MemStore.loadSession World.loadSession
    rw [es]
    have := vs a
    simp only [ByteWorld.view, World.toBytes, normal] at this ⊢
    cases h : w.sessions a with
    | none => rfl
    | some r =>
      rw [h] at this
      simp only [Option.map_some, ByteWorld.parsed, MemStore.parse] at this ⊢
      split at this
      · rename_i e
        rw [e, Option.some.inj this]
      · cases this
  · unfold MemStore.containsSession Dict.contains
    rw [es]
    simp [World.toBytes]
  · unfold MemStore.loadPreKey
    rw [ep]
    have := vp i
    simp only [ByteWorld.view, World.toBytes, normal] at this ⊢
    cases h : w.preKeys i with
    | none => rfl
    | some r =>
      rw [h] at this
      simp only [Option.map_some, ByteWorld.parsed, MemStore.parse] at this ⊢
      split at this
      · rename_i e
        rw [e, Option.some.inj this]
      · cases this
  · unfold MemStore.containsPreKey Dict.contains
    rw [ep]
    simp [World.toBytes]
  · unfold MemStore.loadSignedPreKey
    rw [eg]
    simp only [World.toBytes]
    cases h : w.signedPreKeys i with
    | none => rfl
    | some r =>
      simp only [Option.map_some, MemStore.parse]
      rw [pg i r h]
  · unfold MemStore.containsSignedPreKey Dict.contains
    rw [eg]
    simp [World.toBytes]
  · have hall : ∀ d : Dict Nat Bytes, (∀ e ∈ d, ∃ p, w.signedPreKeys e.1 = some p ∧ e.2 = p.serialize) →
        ∃ l, MemStore.loadAll (d.map Prod.snd) = .ok l ∧ ∀ p, p ∈ l ↔ ∃ e ∈ d, w.signedPreKeys e.1 = some p := by
      intro d
      induction d with
      | nil => intro _; exact ⟨[], rfl, by simp⟩
      | cons e d ih =>
        intro h
        obtain ⟨p, hp, he⟩ := h e (List.mem_cons_self ..)
        obtain ⟨l, hl, hl'⟩ := ih fun e he => h e (List.mem_cons_of_mem _ he)
        refine ⟨p :: l, ?_, ?_⟩
        · rw [List.map_cons]
          simp only [MemStore.loadAll, MemStore.parse]
          rw [he, pg _ p hp, hl]
          rfl
        · intro q
          simp only [List.mem_cons, exists_eq_or_imp, hl', hp, Option.some.injEq]
          exact or_congr ⟨fun e => e.symm, fun e => e.symm⟩ Iff.rfl
    have hin : ∀ e ∈ m.signedPreKeys, ∃ p, w.signedPreKeys e.1 = some p ∧ e.2 = p.serialize := by
      intro e he
      have h1 := (dict_mem_iff m.signedPreKeys ht.signedPreKeys e.1 e.2).2 he
      rw [eg] at h1
      simp only [World.toBytes, Option.map_eq_some_iff] at h1
      obtain ⟨p, hp, hp'⟩ := h1
      exact ⟨p, hp, hp'.symm⟩
    obtain ⟨l, hl, hl'⟩ := hall m.signedPreKeys hin
    refine ⟨l, by unfold MemStore.loadSignedPreKeys; rw [hl], ?_⟩
    intro p
    rw [hl']
    constructor
    · rintro ⟨e, _, he⟩; exact ⟨e.1, he⟩
    · rintro ⟨i, hi⟩
      refine ⟨(i, p.serialize), (dict_mem_iff m.signedPreKeys ht.signedPreKeys i _).1 ?_, hi⟩
      rw [eg]
      simp [World.toBytes, hi]
  · unfold MemStore.isTrustedIdentity
    rw [ei]
    simp only [World.toBytes]
    cases w.identities n <;> rfl

end

/-! ## The hypotheses are met -/

section
attribute [local instance] toy
open Example Spec

/-- Alice sets up sessions with two devices of Bob, asks for all his sessions to be deleted, and writes to the second device. -/
def Example.memSteps : List MemStep :=
  [.call (.processBundle ("bob", 1) bobBundle (key 41) (key 42)), .call (.processBundle ("bob", 2) bobBundle (key 43) (key 44)),
   .app (.deleteAllSessions "bob"), .call (.encrypt ("bob", 2) [104, 105])]

/-- **C65.** `deleteAllSessions` does not delete all sessions: with two devices the second one stays, and messages to it are
still encrypted with the session that should be gone. -/
theorem C65_deleteAll_false :
    (MemStep.after (.new (pair 1) 11) (memSteps.take 2)).sessions.keys = [("bob", 1), ("bob", 2)] ∧
    ((MemStep.after (.new (pair 1) 11) (memSteps.take 2)).deleteAllSessions "bob").1 = .error .runtimeError ∧
    (MemStep.after (.new (pair 1) 11) (memSteps.take 3)).sessions.keys = [("bob", 2)] ∧
    (MemStep.replies (.new (pair 1) 11) memSteps).all (fun r => r.toOption.isSome) = true := by
  refine ⟨?_, ?_, ?_, ?_⟩ <;> decide +kernel

theorem Example.memSteps_made : ∀ x ∈ memSteps, MadeByConstructors x := by
  intro x hx
  simp only [memSteps, List.mem_cons, List.not_mem_nil, or_false] at hx
  rcases hx with rfl | rfl | rfl | rfl <;> trivial

theorem Example.memSteps_sized : ∀ c ∈ callsIn memSteps, Sized c := by
  intro c hc
  simp only [memSteps, callsIn, List.mem_cons, List.not_mem_nil, or_false] at hc
  rcases hc with rfl | rfl | rfl <;> simp [Sized]

/-- `C65_history` and `C65_loads` for that history. -/
example := C65_history toy_lawful (pair 1) 11 rfl memSteps memSteps_sized memSteps_made
example := C65_loads toy_lawful (pair 1) 11 rfl memSteps memSteps_sized memSteps_made

/-- Bob's store: prekeys, Alice's first message, an attempt to withdraw the signed prekey, and one that works. -/
def Example.bobMem : List MemStep :=
  [.app (.storePreKey 31 bobPreKey), .app (.storeSignedPreKey 22 bobSignedPreKey),
   .call (.decryptPkmsg aliceAddr firstPk (key 51) fun _ => key 52), .app (.removeSignedPreKey 22),
   .app (.removeSignedPreKeyPart 22), .app (.deleteSession ("carol", 1)), .app (.saveIdentity "carol" (key 7))]

theorem Example.bobMem_made : ∀ x ∈ bobMem, MadeByConstructors x := by
  intro x hx
  simp only [bobMem, List.mem_cons, List.not_mem_nil, or_false] at hx
  rcases hx with rfl | rfl | rfl | rfl | rfl | rfl | rfl <;> try trivial
  · refine ⟨31, pair 31, by decide, by decide, by decide, ?_⟩
    decide +kernel
  · refine ⟨22, 1000, pair 22, Toy.tag (key 2) (5 :: key 22), by decide, by decide, by decide, by decide, by decide +kernel, ?_⟩
    decide +kernel

example : ∃ ss, Amounts (.new (pair 2) 12) bobMem ss ∧
    MemStep.replies (.new (pair 2) 12) bobMem = Step.replies (.new (pair 2) 12) ss := by
  obtain ⟨ss, h1, h2, _⟩ := C65_history toy_lawful (pair 2) 12 rfl bobMem (by
    intro c hc
    simp only [bobMem, callsIn, List.mem_cons, List.not_mem_nil, or_false] at hc
    subst hc
    trivial) bobMem_made
  exact ⟨ss, h1, h2⟩

/-- The message is read, its one-time prekey is gone; the signed prekey is there after the first attempt and gone after the
second; Carol's identity counts. -/
example :
    (MemStep.replies (.new (pair 2) 12) bobMem).map (fun x => match x with | .ok (.plaintext p) => p | _ => []) = [[104, 105]] ∧
    (MemStep.after (.new (pair 2) 12) (bobMem.take 3)).preKeys.keys = [] ∧
    (MemStep.after (.new (pair 2) 12) (bobMem.take 4)).signedPreKeys.keys = [22] ∧
    (MemStep.after (.new (pair 2) 12) (bobMem.take 5)).signedPreKeys.keys = [] ∧
    ((MemStep.after (.new (pair 2) 12) (bobMem.take 5)).deleteSession ("carol", 1)).1 = .error .keyError ∧
    ((MemStep.after (.new (pair 2) 12) bobMem).isTrustedIdentity "carol" (key 8)).1 = .ok false ∧
    ((MemStep.after (.new (pair 2) 12) bobMem).getSubDeviceSessions "alice").1 = .ok [1] := by
  refine ⟨?_, ?_, ?_, ?_, ?_, ?_, ?_⟩ <;> decide +kernel

end
end Axolotl
