import Verif.Spec.Locked
import Verif.Proofs.Interleave

/-!
# Runs under locks are serial
-/

namespace Axolotl
open Spec

section General
variable {M : Machine} {κ α : Type} {prog : κ → Prog M α} {apart : κ → κ → Prop} {I : M.State → Prop} {foot : κ → Footprint M}

/-- One call after the other: the stores after these calls. -/
def serially (prog : κ → Prog M α) (s : M.State) (cs : List κ) : M.State := cs.foldl (fun s c => M.applyAll s ((prog c).alone s).1) s

/-- A call in progress: the call, the changes it has made, and what it still has to do. -/
abbrev Underway (M : Machine) (κ α : Type) := κ × List M.Change × Prog M α

/-- All changes made by calls in progress. -/
def madeBy (u : List (Underway M κ α)) : List M.Change := u.flatMap fun e => e.2.1

/-- The stores are those after the finished calls, with the changes of the calls in progress. -/
structure LockInv (prog : κ → Prog M α) (apart : κ → κ → Prop) (I : M.State → Prop) (foot : κ → Footprint M) (T s : M.State)
    (u : List (Underway M κ α)) : Prop where
  inv : I T
  state : s = M.applyAll T (madeBy u)
  pair : u.Pairwise fun e e' => apart e.1 e'.1
  rest : ∀ e ∈ u, e.2.2.Within (foot e.1) ∧ (∀ x ∈ e.2.1, (foot e.1).changes x) ∧
    (prog e.1).alone T = (e.2.1 ++ (e.2.2.alone s).1, (e.2.2.alone s).2)

variable (hI : ∀ s x, I s → I (M.apply s x)) (hfoot : ∀ c, (prog c).Within (foot c)) (hsymm : ∀ c d, apart c d → apart d c)
  (hapart : ∀ c d, apart c d → Harmless I (foot c) (foot d))

include hI in
theorem commute_all {F G : Footprint M} (h : Harmless I F G) {x : M.Change} (hx : F.changes x) : ∀ (ys : List M.Change) (s : M.State), I s →
    (∀ y ∈ ys, G.changes y) → M.applyAll (M.apply s x) ys = M.apply (M.applyAll s ys) x := by
  intro ys
  induction ys with
  | nil => exact fun s _ _ => rfl
  | cons y ys ih =>
    intro s hs hy
    show M.applyAll (M.apply (M.apply s x) y) ys = M.apply (M.applyAll (M.apply s y) ys) x
    rw [h.commute s x y hs hx (hy y (List.mem_cons_self ..))]
    exact ih _ (hI _ _ hs) fun z hz => hy z (List.mem_cons_of_mem _ hz)

include hI in
theorem commute_lists {F G : Footprint M} (h : Harmless I F G) : ∀ (xs ys : List M.Change) (s : M.State), I s →
    (∀ x ∈ xs, F.changes x) → (∀ y ∈ ys, G.changes y) → M.applyAll (M.applyAll s xs) ys = M.applyAll (M.applyAll s ys) xs := by
  intro xs
  induction xs with
  | nil => exact fun ys s _ _ _ => rfl
  | cons x xs ih =>
    intro ys s hs hx hy
    show M.applyAll (M.applyAll (M.apply s x) xs) ys = M.applyAll (M.apply (M.applyAll s ys) x) xs
    rw [ih ys _ (hI _ _ hs) (fun z hz => hx z (List.mem_cons_of_mem _ hz)) hy,
      commute_all hI h (hx x (List.mem_cons_self ..)) ys s hs hy]

include hI hapart in
/-- Changes of a call commute with those of all calls in progress that it is apart from. -/
theorem commute_made {c : κ} (xs : List M.Change) (hx : ∀ x ∈ xs, (foot c).changes x) : ∀ (u : List (Underway M κ α)) (s : M.State), I s →
    (∀ e ∈ u, apart c e.1 ∧ ∀ x ∈ e.2.1, (foot e.1).changes x) →
    M.applyAll (M.applyAll s xs) (madeBy u) = M.applyAll (M.applyAll s (madeBy u)) xs := by
  intro u
  induction u with
  | nil => exact fun s _ _ => rfl
  | cons e u ih =>
    intro s hs h
    obtain ⟨h1, h2⟩ := h e (List.mem_cons_self ..)
    unfold madeBy
    rw [List.flatMap_cons, changes_append, changes_append, commute_lists hI (hapart _ _ h1) xs e.2.1 s hs hx h2]
    exact ih _ (invariant_applyAll hI hs _) fun e' he' => h e' (List.mem_cons_of_mem _ he')

include hI hapart in
theorem alone_made {c : κ} {p : Prog M α} (hp : p.Within (foot c)) : ∀ (u : List (Underway M κ α)) (s : M.State), I s →
    (∀ e ∈ u, apart e.1 c ∧ ∀ x ∈ e.2.1, (foot e.1).changes x) → p.alone (M.applyAll s (madeBy u)) = p.alone s := by
  intro u
  induction u with
  | nil => exact fun s _ _ => rfl
  | cons e u ih =>
    intro s hs h
    obtain ⟨h1, h2⟩ := h e (List.mem_cons_self ..)
    unfold madeBy
    rw [List.flatMap_cons, changes_append]
    exact (ih _ (invariant_applyAll hI hs _) fun e' he' => h e' (List.mem_cons_of_mem _ he')).trans
      (alone_undisturbed_all hI (hapart _ _ h1) hp h2 s hs)

theorem serially_append (s : M.State) (cs : List κ) (c : κ) :
    serially prog s (cs ++ [c]) = M.applyAll (serially prog s cs) ((prog c).alone (serially prog s cs)).1 := by
  unfold serially
  rw [List.foldl_append]
  rfl

/-- Each call gave what it gives after those that finished before it. -/
def GaveSerially (prog : κ → Prog M α) (s : M.State) (fin : List (κ × Res α)) : Prop :=
  ∀ i c r, fin[i]? = some (c, r) → ((prog c).alone (serially prog s ((fin.take i).map Prod.fst))).2 = r

theorem madeBy_append (u v : List (Underway M κ α)) : madeBy (u ++ v) = madeBy u ++ madeBy v := by
  unfold madeBy
  rw [List.flatMap_append]

theorem running_split {β γ : Type} {f : β → γ} {l : List β} {a : List γ} {x : γ} {b : List γ} (h : l.map f = a ++ x :: b) :
    ∃ a' y b', l = a' ++ y :: b' ∧ a'.map f = a ∧ f y = x ∧ b'.map f = b := by
  obtain ⟨a', l2, h1, h2, h3⟩ := List.map_eq_append_iff.1 h
  obtain ⟨y, b', h4, h5, h6⟩ := List.map_eq_cons_iff.1 h3
  exact ⟨a', y, b', by rw [h1, h4], h2, h5, h6⟩

include hI hfoot hsymm hapart in
theorem locked_inv {s0 s : M.State} {running : List (κ × Prog M α)} {fin : List (κ × Res α)} (h0 : I s0)
    (h : Locked prog apart s0 s running fin) :
    (∃ u : List (Underway M κ α), u.map (fun e => (e.1, e.2.2)) = running ∧
      LockInv prog apart I foot (serially prog s0 (fin.map Prod.fst)) s u) ∧ GaveSerially prog s0 fin := by
  induction h with
  | start => exact ⟨⟨[], rfl, h0, rfl, .nil, fun e he => by cases he⟩, fun i c r h => by cases h⟩
  | @enter s running fin c _ hc ih =>
    obtain ⟨⟨u, hu, hinv⟩, hg⟩ := ih
    have hcu : ∀ e ∈ u, apart c e.1 := fun e he => hc (e.1, e.2.2) (hu ▸ List.mem_map.2 ⟨e, he, rfl⟩)
    refine ⟨⟨(c, [], prog c) :: u, by rw [List.map_cons, hu], hinv.inv, hinv.state, List.pairwise_cons.2 ⟨hcu, hinv.pair⟩, ?_⟩, hg⟩
    intro e he
    rcases List.mem_cons.1 he with rfl | he
    · refine ⟨hfoot c, fun x hx => (nomatch hx), ?_⟩
      show (prog c).alone _ = ((prog c).alone s)
      rw [hinv.state]
      exact (alone_made hI hapart (hfoot c) u _ hinv.inv fun e he => ⟨hsymm _ _ (hcu e he), (hinv.rest e he).2.1⟩).symm
    · exact hinv.rest e he
  | @ask s a b fin c q k _ ih =>
    obtain ⟨⟨u, hu, hinv⟩, hg⟩ := ih
    obtain ⟨u1, e, u2, rfl, h1, h2, h3⟩ := running_split hu
    obtain ⟨c', X, p⟩ := e
    obtain ⟨rfl, rfl⟩ := Prod.mk.inj h2
    refine ⟨⟨u1 ++ (c', X, k (M.answer s q)) :: u2, by rw [List.map_append, List.map_cons, h1, h3], hinv.inv, ?_, ?_, ?_⟩, hg⟩
    · rw [hinv.state, madeBy_append, madeBy_append]
      rfl
    · have := hinv.pair
      rw [List.pairwise_append, List.pairwise_cons] at this ⊢
      refine ⟨this.1, this.2.1, fun x hx y hy => ?_⟩
      rcases List.mem_cons.1 hy with rfl | hy
      · exact this.2.2 x hx (c', X, .ask q k) (List.mem_cons_self ..)
      · exact this.2.2 x hx y (List.mem_cons_of_mem _ hy)
    · intro e he
      rcases List.mem_append.1 he with he | he
      · exact hinv.rest e (List.mem_append_left _ he)
      · rcases List.mem_cons.1 he with rfl | he
        · obtain ⟨w1, w2, w3⟩ := hinv.rest _ (List.mem_append_right _ (List.mem_cons_self ..))
          cases w1 with
          | ask _ hk => exact ⟨hk _, w2, w3⟩
        · exact hinv.rest e (List.mem_append_right _ (List.mem_cons_of_mem _ he))
  | @change s a b fin c x k _ ih =>
    obtain ⟨⟨u, hu, hinv⟩, hg⟩ := ih
    obtain ⟨u1, e, u2, rfl, h1, h2, h3⟩ := running_split hu
    obtain ⟨c', X, p⟩ := e
    obtain ⟨rfl, rfl⟩ := Prod.mk.inj h2
    have hp := hinv.pair
    rw [List.pairwise_append, List.pairwise_cons] at hp
    obtain ⟨hp1, ⟨hp2, hp3⟩, hp4⟩ := hp
    obtain ⟨w1, w2, w3⟩ := hinv.rest _ (List.mem_append_right _ (List.mem_cons_self ..))
    have hxk : (foot c').changes x ∧ k.Within (foot c') := by
      cases w1 with
      | change h1 h2 => exact ⟨h1, h2⟩
    have hs : I s := hinv.state ▸ invariant_applyAll hI hinv.inv _
    have hother : ∀ e ∈ u1 ++ u2, apart c' e.1 ∧ e ∈ u1 ++ (c', X, .change x k) :: u2 := by
      intro e he
      rcases List.mem_append.1 he with he | he
      · exact ⟨hsymm _ _ (hp4 e he _ (List.mem_cons_self ..)), List.mem_append_left _ he⟩
      · exact ⟨hp2 e he, List.mem_append_right _ (List.mem_cons_of_mem _ he)⟩
    have hrest : ∀ e ∈ u1 ++ u2, e.2.2.Within (foot e.1) ∧ (∀ x ∈ e.2.1, (foot e.1).changes x) ∧
        (prog e.1).alone (serially prog s0 (fin.map Prod.fst)) =
          (e.2.1 ++ (e.2.2.alone (M.apply s x)).1, (e.2.2.alone (M.apply s x)).2) := by
      intro e he
      obtain ⟨q1, q2⟩ := hother e he
      obtain ⟨r1, r2, r3⟩ := hinv.rest e q2
      refine ⟨r1, r2, ?_⟩
      rw [alone_undisturbed hI (hapart _ _ q1) r1 hxk.1 s hs]
      exact r3
    refine ⟨⟨u1 ++ (c', X ++ [x], k) :: u2, by rw [List.map_append, List.map_cons, h1, h3], hinv.inv, ?_, ?_, ?_⟩, hg⟩
    · have key := hinv.state
      rw [madeBy_append, changes_append] at key ⊢
      have e1 : madeBy ((c', X, Prog.change x k) :: u2) = X ++ madeBy u2 := rfl
      have e2 : madeBy ((c', X ++ [x], k) :: u2) = X ++ ([x] ++ madeBy u2) := by
        show (X ++ [x]) ++ madeBy u2 = _
        rw [List.append_assoc]
      rw [e1, changes_append] at key
      rw [e2, changes_append, changes_append, key]
      refine Eq.symm ?_
      refine commute_made hI hapart [x] (fun y hy => by rw [List.mem_singleton.1 hy]; exact hxk.1) u2 _ ?_ ?_
      · exact invariant_applyAll hI (invariant_applyAll hI hinv.inv _) _
      · exact fun e he => ⟨hp2 e he, (hinv.rest e (List.mem_append_right _ (List.mem_cons_of_mem _ he))).2.1⟩
    · rw [List.pairwise_append, List.pairwise_cons]
      refine ⟨hp1, ⟨hp2, hp3⟩, fun y hy z hz => ?_⟩
      rcases List.mem_cons.1 hz with rfl | hz
      · exact hp4 y hy (c', X, .change x k) (List.mem_cons_self ..)
      · exact hp4 y hy z (List.mem_cons_of_mem _ hz)
    · intro e he
      rcases List.mem_append.1 he with he | he
      · exact hrest e (List.mem_append_left _ he)
      · rcases List.mem_cons.1 he with rfl | he
        · refine ⟨hxk.2, ?_, ?_⟩
          · intro y hy
            rcases List.mem_append.1 hy with hy | hy
            · exact w2 y hy
            · rw [List.mem_singleton.1 hy]
              exact hxk.1
          · rw [w3]
            show (X ++ (x :: (k.alone (M.apply s x)).1), (k.alone (M.apply s x)).2) = _
            rw [List.append_assoc]
            rfl
        · exact hrest e (List.mem_append_right _ he)
  | @leave s a b fin c r _ ih =>
    obtain ⟨⟨u, hu, hinv⟩, hg⟩ := ih
    obtain ⟨u1, e, u2, rfl, h1, h2, h3⟩ := running_split hu
    obtain ⟨c', X, p⟩ := e
    obtain ⟨rfl, rfl⟩ := Prod.mk.inj h2
    have hp := hinv.pair
    rw [List.pairwise_append, List.pairwise_cons] at hp
    obtain ⟨hp1, ⟨hp2, hp3⟩, hp4⟩ := hp
    obtain ⟨w1, w2, w3⟩ := hinv.rest _ (List.mem_append_right _ (List.mem_cons_self ..))
    have w3 : (prog c').alone (serially prog s0 (fin.map Prod.fst)) = (X, r) := by
      rw [w3]
      show (X ++ [], r) = _
      rw [List.append_nil]
    have hT : serially prog s0 ((fin ++ [(c', r)]).map Prod.fst) = M.applyAll (serially prog s0 (fin.map Prod.fst)) X := by
      rw [List.map_append]
      show serially prog s0 (fin.map Prod.fst ++ [c']) = _
      rw [serially_append, w3]
    have hother : ∀ e ∈ u1 ++ u2, apart c' e.1 ∧ e ∈ u1 ++ (c', X, .done r) :: u2 := by
      intro e he
      rcases List.mem_append.1 he with he | he
      · exact ⟨hsymm _ _ (hp4 e he _ (List.mem_cons_self ..)), List.mem_append_left _ he⟩
      · exact ⟨hp2 e he, List.mem_append_right _ (List.mem_cons_of_mem _ he)⟩
    refine ⟨⟨u1 ++ u2, by rw [List.map_append, h1, h3], ?_, ?_, ?_, ?_⟩, ?_⟩
    · rw [hT]
      exact invariant_applyAll hI hinv.inv _
    · rw [hT, madeBy_append, changes_append,
        commute_made hI hapart X w2 u1 _ hinv.inv fun e he =>
          ⟨(hother e (List.mem_append_left _ he)).1, (hinv.rest e (List.mem_append_left _ he)).2.1⟩]
      have key := hinv.state
      rw [madeBy_append, changes_append] at key
      have e1 : madeBy ((c', X, Prog.done r) :: u2) = X ++ madeBy u2 := rfl
      rw [e1, changes_append] at key
      exact key
    · exact List.pairwise_append.2 ⟨hp1, hp3, fun y hy z hz => hp4 y hy z (List.mem_cons_of_mem _ hz)⟩
    · intro e he
      obtain ⟨q1, q2⟩ := hother e he
      obtain ⟨r1, r2, r3⟩ := hinv.rest e q2
      refine ⟨r1, r2, ?_⟩
      rw [hT, alone_undisturbed_all hI (hapart _ _ q1) (hfoot _) w2 _ hinv.inv]
      exact r3
    · intro i d r' hi
      rcases Nat.lt_or_ge i fin.length with hlt | hge
      · rw [List.getElem?_append_left hlt] at hi
        rw [List.take_append_of_le_length (Nat.le_of_lt hlt)]
        exact hg i d r' hi
      · rw [List.getElem?_append_right hge] at hi
        have : i - fin.length = 0 := by
          rcases Nat.eq_zero_or_pos (i - fin.length) with h | h
          · exact h
          · rw [List.getElem?_eq_none h] at hi
            cases hi
        rw [this] at hi
        obtain ⟨rfl, rfl⟩ := Prod.mk.inj (Option.some.inj hi)
        have hi' : i = fin.length := by omega
        subst hi'
        rw [List.take_left', w3]
        rfl

end General

end Axolotl
