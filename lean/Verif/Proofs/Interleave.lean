import Verif.Spec.Interleave
import Verif.Proofs.Basic

/-!
# Programs and their interleavings
-/

namespace Axolotl
open Spec

/-! ## Programs -/

section General

variable {M : Machine} {α β : Type}

theorem alone_bind (p : Prog M α) (f : α → Prog M β) (s : M.State) :
    (p >>= f).alone s = match (p.alone s).2 with
      | .ok a => ((p.alone s).1 ++ ((f a).alone (M.applyAll s (p.alone s).1)).1, ((f a).alone (M.applyAll s (p.alone s).1)).2)
      | .error e => ((p.alone s).1, .error e) := by
  show (p.bind f).alone s = _
  induction p generalizing s with
  | done r => cases r <;> rfl
  | ask q k ih => exact ih _ s
  | change x k ih =>
    have h := ih (M.apply s x)
    simp only [Prog.bind, Prog.alone]
    rw [h]
    cases (k.alone (M.apply s x)).2 <;> rfl

theorem alone_outcome (p : Prog M α) (s : M.State) : p.outcome.alone s = ((p.alone s).1, .ok (p.alone s).2) := by
  induction p generalizing s with
  | done r => rfl
  | ask q k ih => exact ih _ s
  | change x k ih =>
    simp only [Prog.outcome, Prog.alone, ih]

theorem alone_cons {p : Prog M α} {q : Prog M (List (Res α))} {s : M.State} {xs ys : List M.Change} {r : Res α} {rs : List (Res α)}
    (h1 : p.alone s = (xs, r)) (h2 : q.alone (M.applyAll s xs) = (ys, .ok rs)) :
    (p.outcome >>= fun r => q >>= fun rs => pure (r :: rs)).alone s = (xs ++ ys, .ok (r :: rs)) := by
  rw [alone_bind, alone_outcome, h1]
  dsimp only
  rw [alone_bind, h2]
  show (xs ++ (ys ++ []), _) = _
  rw [List.append_nil]
  rfl

/-- What a program may ask and change. -/
structure Footprint (M : Machine) where
  asks : M.Query → Prop
  changes : M.Change → Prop

inductive Prog.Within (F : Footprint M) : Prog M α → Prop
  | done {r : Res α} : Within F (.done r)
  | ask {q : M.Query} {k : M.Answer q → Prog M α} : F.asks q → (∀ a, Within F (k a)) → Within F (.ask q k)
  | change {x : M.Change} {k : Prog M α} : F.changes x → Within F k → Within F (.change x k)

theorem within_bind {F : Footprint M} {p : Prog M α} {f : α → Prog M β} (hp : p.Within F) (hf : ∀ a, (f a).Within F) :
    (p >>= f).Within F := by
  show (p.bind f).Within F
  induction hp with
  | @done r =>
    cases r with
    | ok a => exact hf a
    | error e => exact .done
  | ask h _ ih => exact .ask h ih
  | change h _ ih => exact .change h ih

theorem within_outcome {F : Footprint M} {p : Prog M α} (hp : p.Within F) : p.outcome.Within F := by
  induction hp with
  | done => exact .done
  | ask h _ ih => exact .ask h ih
  | change h _ ih => exact .change h ih

theorem within_mono {F G : Footprint M} {p : Prog M α} (hp : p.Within F) (hq : ∀ q, F.asks q → G.asks q)
    (hx : ∀ x, F.changes x → G.changes x) : p.Within G := by
  induction hp with
  | done => exact .done
  | ask h _ ih => exact .ask (hq _ h) ih
  | change h _ ih => exact .change (hx _ h) ih

/-- Changes of `F` make no difference to `G`, in stores that satisfy `I`. -/
structure Harmless (I : M.State → Prop) (F G : Footprint M) : Prop where
  answers : ∀ s x q, I s → F.changes x → G.asks q → M.answer (M.apply s x) q = M.answer s q
  commute : ∀ s x y, I s → F.changes x → G.changes y → M.apply (M.apply s x) y = M.apply (M.apply s y) x

/-- Two programs that do not disturb each other. -/
def Independent (I : M.State → Prop) (p q : Prog M α) : Prop :=
  ∃ F G : Footprint M, p.Within F ∧ q.Within G ∧ Harmless I F G ∧ Harmless I G F

variable {I : M.State → Prop} (hI : ∀ s x, I s → I (M.apply s x))
include hI

theorem alone_undisturbed {F G : Footprint M} (h : Harmless I F G) {p : Prog M α} (hp : p.Within G) {x : M.Change}
    (hx : F.changes x) : ∀ s, I s → p.alone (M.apply s x) = p.alone s := by
  induction hp with
  | done => exact fun s _ => rfl
  | ask hq _ ih =>
    intro s hs
    simp only [Prog.alone]
    rw [h.answers s x _ hs hx hq]
    exact ih _ s hs
  | change hy _ ih =>
    intro s hs
    simp only [Prog.alone]
    rw [h.commute s x _ hs hx hy, ih _ (hI _ _ hs)]

theorem applyAll_commute {F G : Footprint M} (h : Harmless I F G) {p : Prog M α} (hp : p.Within G) {x : M.Change}
    (hx : F.changes x) : ∀ s, I s → M.applyAll (M.apply s x) (p.alone s).1 = M.apply (M.applyAll s (p.alone s).1) x := by
  induction hp with
  | done => exact fun s _ => rfl
  | ask hq _ ih => exact fun s hs => ih _ s hs
  | @change y k hy hk ih =>
    intro s hs
    show M.applyAll (M.apply (M.apply s x) y) (k.alone (M.apply s y)).1 = M.apply (M.applyAll (M.apply s y) (k.alone (M.apply s y)).1) x
    rw [h.commute s x y hs hx hy]
    exact ih _ (hI _ _ hs)

omit hI in
theorem changes_append (s : M.State) (xs ys : List M.Change) :
    M.applyAll s (xs ++ ys) = M.applyAll (M.applyAll s xs) ys := List.foldl_append

theorem invariant_applyAll {s : M.State} (hs : I s) (xs : List M.Change) : I (M.applyAll s xs) := by
  induction xs generalizing s with
  | nil => exact hs
  | cons x xs ih => exact ih (hI s x hs)

theorem alone_undisturbed_all {F G : Footprint M} (h : Harmless I F G) {p : Prog M α} (hp : p.Within G)
    {xs : List M.Change} (hxs : ∀ x ∈ xs, F.changes x) : ∀ s, I s → p.alone (M.applyAll s xs) = p.alone s := by
  induction xs with
  | nil => exact fun s _ => rfl
  | cons x xs ih =>
    intro s hs
    show p.alone (M.applyAll (M.apply s x) xs) = _
    rw [ih (fun y hy => hxs y (List.mem_cons_of_mem _ hy)) _ (hI _ _ hs)]
    exact alone_undisturbed hI h hp (hxs x (List.mem_cons_self ..)) s hs

omit hI in
theorem changes_within {F : Footprint M} {p : Prog M α} (hp : p.Within F) : ∀ s, ∀ x ∈ (p.alone s).1, F.changes x := by
  induction hp with
  | done => intro s x hx; cases hx
  | ask _ _ ih => exact fun s => ih _ s
  | change h _ ih =>
    intro s x hx
    rcases List.mem_cons.1 hx with rfl | hx
    · exact h
    · exact ih _ x hx

/-- What the threads change, thread after thread. -/
theorem commute_past {x : M.Change} : ∀ (ps : List (Prog M α)) (s : M.State), I s →
    (∀ p ∈ ps, ∃ F G : Footprint M, F.changes x ∧ p.Within G ∧ Harmless I F G) →
    ps.Pairwise (Independent I) →
    M.applyAll (M.apply s x) (ps.flatMap fun p => (p.alone s).1) = M.apply (M.applyAll s (ps.flatMap fun p => (p.alone s).1)) x := by
  intro ps
  induction ps with
  | nil => exact fun s _ _ _ => rfl
  | cons p ps ih =>
    intro s hs h hpair
    obtain ⟨F, G, hx, hp, hh⟩ := h p (List.mem_cons_self ..)
    obtain ⟨hp1, hp2⟩ := List.pairwise_cons.1 hpair
    have hsame : ∀ (qs : List (Prog M α)), (∀ q ∈ qs, Independent I p q) →
        (qs.flatMap fun q => (q.alone (M.applyAll s (p.alone s).1)).1) = qs.flatMap fun q => (q.alone s).1 := by
      intro qs hq
      induction qs with
      | nil => rfl
      | cons q qs ihq =>
        obtain ⟨F', G', w1, w2, w3, _⟩ := hq q (List.mem_cons_self ..)
        rw [List.flatMap_cons, List.flatMap_cons, ihq fun q' hq' => hq q' (List.mem_cons_of_mem _ hq'),
          alone_undisturbed_all hI w3 w2 (changes_within w1 s) s hs]
    rw [List.flatMap_cons, changes_append, changes_append, applyAll_commute hI hh hp hx s hs, ← hsame ps hp1]
    exact ih _ (invariant_applyAll hI hs _) (fun q hq => h q (List.mem_cons_of_mem _ hq)) hp2

omit hI in
theorem independent_symm {p q : Prog M α} (h : Independent I p q) : Independent I q p := by
  obtain ⟨F, G, h1, h2, h3, h4⟩ := h
  exact ⟨G, F, h2, h1, h4, h3⟩

/-- Programs that do not disturb each other: whatever the scheduler does, each gives what it gives alone, and together they
change what they change one after the other. -/
theorem runs_independent {s s' : M.State} {ps ps' : List (Prog M α)} (h : Interleaved s ps s' ps') :
    I s → ps.Pairwise (Independent I) → ∀ rs : List (Res α), ps' = rs.map .done →
    rs = ps.map (fun p => (p.alone s).2) ∧ s' = M.applyAll s (ps.flatMap fun p => (p.alone s).1) := by
  induction h with
  | @stop s _ =>
    intro _ _ rs hrs
    subst hrs
    constructor
    · rw [List.map_map]
      exact (List.map_id rs).symm
    · have : ∀ rs : List (Res α), (rs.map Prog.done).flatMap (fun p : Prog M α => (p.alone s).1) = [] := by
        intro rs
        induction rs with
        | nil => rfl
        | cons r rs ih => exact ih
      rw [this]
      rfl
  | @ask s s' a b ps' q k _ ih =>
    intro hs hpair rs hrs
    have hpair' : (a ++ k (M.answer s q) :: b).Pairwise (Independent I) := by
      have hk : ∀ p, Independent I (.ask q k) p → Independent I (k (M.answer s q)) p := by
        rintro p ⟨F, G, h1, h2, h3⟩
        cases h1 with
        | ask _ h1 => exact ⟨F, G, h1 _, h2, h3⟩
      rw [List.pairwise_append, List.pairwise_cons] at hpair ⊢
      obtain ⟨p1, ⟨p2, p3⟩, p4⟩ := hpair
      refine ⟨p1, ⟨fun z hz => hk z (p2 z hz), p3⟩, ?_⟩
      intro y hy z hz
      rcases List.mem_cons.1 hz with rfl | hz
      · exact independent_symm (hk y (independent_symm (p4 y hy _ (List.mem_cons_self ..))))
      · exact p4 y hy z (List.mem_cons_of_mem _ hz)
    obtain ⟨h1, h2⟩ := ih hs hpair' rs hrs
    refine ⟨?_, ?_⟩
    · rw [h1]
      simp [Prog.alone]
    · rw [h2]
      simp [Prog.alone]
  | @change s s' a b ps' x k _ ih =>
    intro hs hpair rs hrs
    rw [List.pairwise_append, List.pairwise_cons] at hpair
    obtain ⟨p1, ⟨p2, p3⟩, p4⟩ := hpair
    have hk : ∀ p, Independent I (.change x k) p → Independent I k p := by
      rintro p ⟨F, G, h1, h2, h3⟩
      cases h1 with
      | change _ h1 => exact ⟨F, G, h1, h2, h3⟩
    have hx : ∀ p, Independent I (.change x k) p → ∃ F G : Footprint M, F.changes x ∧ p.Within G ∧ Harmless I F G := by
      rintro p ⟨F, G, h1, h2, h3, _⟩
      cases h1 with
      | change h1 _ => exact ⟨F, G, h1, h2, h3⟩
    have hsame : ∀ p, Independent I (.change x k) p → p.alone (M.apply s x) = p.alone s := by
      intro p hp
      obtain ⟨F, G, h1, h2, h3⟩ := hx p hp
      exact alone_undisturbed hI h3 h2 h1 s hs
    have ha : ∀ p ∈ a, Independent I (.change x k) p :=
      fun p hp => independent_symm (p4 p hp _ (List.mem_cons_self ..))
    have hpair' : (a ++ k :: b).Pairwise (Independent I) := by
      rw [List.pairwise_append, List.pairwise_cons]
      refine ⟨p1, ⟨fun z hz => hk z (p2 z hz), p3⟩, ?_⟩
      intro y hy z hz
      rcases List.mem_cons.1 hz with rfl | hz
      · exact independent_symm (hk y (ha y hy))
      · exact p4 y hy z (List.mem_cons_of_mem _ hz)
    obtain ⟨h1, h2⟩ := ih (hI _ _ hs) hpair' rs hrs
    have ea : ∀ {γ : Type} (f : List M.Change × Res α → γ), a.map (fun p => f (p.alone (M.apply s x))) = a.map fun p => f (p.alone s) :=
      fun f => List.map_congr_left fun p hp => by rw [hsame p (ha p hp)]
    have eb : ∀ {γ : Type} (f : List M.Change × Res α → γ), b.map (fun p => f (p.alone (M.apply s x))) = b.map fun p => f (p.alone s) :=
      fun f => List.map_congr_left fun p hp => by rw [hsame p (p2 p hp)]
    refine ⟨?_, ?_⟩
    · rw [h1, List.map_append, List.map_cons, List.map_append, List.map_cons, ea Prod.snd, eb Prod.snd]
      rfl
    · rw [h2]
      simp only [List.flatMap_append, List.flatMap_cons]
      simp only [List.flatMap_def]
      rw [ea Prod.fst, eb Prod.fst, changes_append, changes_append]
      have := commute_past hI a s hs (fun p hp => hx p (ha p hp)) p1
      simp only [List.flatMap_def] at this
      rw [this, changes_append, changes_append]
      rfl

/-- Every value the program can give satisfies `Q`. -/
inductive Prog.Yields (Q : α → Prop) : Prog M α → Prop
  | ok {a : α} : Q a → Yields Q (.done (.ok a))
  | error {e : Err} : Yields Q (.done (.error e))
  | ask {q : M.Query} {k : M.Answer q → Prog M α} : (∀ a, Yields Q (k a)) → Yields Q (.ask q k)
  | change {x : M.Change} {k : Prog M α} : Yields Q k → Yields Q (.change x k)

omit hI in
theorem yields_bind {Q : β → Prop} {p : Prog M α} {f : α → Prog M β} (hf : ∀ a, (f a).Yields Q) : (p >>= f).Yields Q := by
  show (p.bind f).Yields Q
  induction p with
  | done r =>
    cases r with
    | ok a => exact hf a
    | error e => exact .error
  | ask q k ih => exact .ask ih
  | change x k ih => exact .change ih

omit hI in
theorem yields_bind' {Q : β → Prop} {R : α → Prop} {p : Prog M α} {f : α → Prog M β} (hp : p.Yields R)
    (hf : ∀ a, R a → (f a).Yields Q) : (p >>= f).Yields Q := by
  show (p.bind f).Yields Q
  induction hp with
  | ok h => exact hf _ h
  | error => exact .error
  | ask _ ih => exact .ask ih
  | change _ ih => exact .change ih

omit hI in
theorem within_bind_yields {F : Footprint M} {R : α → Prop} {p : Prog M α} {f : α → Prog M β} (hp : p.Within F)
    (hy : p.Yields R) (hf : ∀ a, R a → (f a).Within F) : (p >>= f).Within F := by
  show (p.bind f).Within F
  induction hp with
  | @done r =>
    cases hy with
    | ok h => exact hf _ h
    | error => exact .done
  | ask h _ ih =>
    cases hy with
    | ask hy => exact .ask h fun a => ih a (hy a)
  | change h _ ih =>
    cases hy with
    | change hy => exact .change h (ih hy)

/-! Programs that ask first and change afterwards. -/

omit hI

inductive Prog.ChangesOnly : Prog M α → Prop
  | done {r : Res α} : ChangesOnly (.done r)
  | change {x : M.Change} {k : Prog M α} : ChangesOnly k → ChangesOnly (.change x k)

inductive Prog.AsksFirst : Prog M α → Prop
  | ask {q : M.Query} {k : M.Answer q → Prog M α} : (∀ a, AsksFirst (k a)) → AsksFirst (.ask q k)
  | rest {p : Prog M α} : p.ChangesOnly → AsksFirst p

theorem changesOnly_bind {p : Prog M α} {f : α → Prog M β} (hp : p.ChangesOnly) (hf : ∀ a, (f a).ChangesOnly) :
    (p >>= f).ChangesOnly := by
  show (p.bind f).ChangesOnly
  induction hp with
  | @done r =>
    cases r with
    | ok a => exact hf a
    | error e => exact .done
  | change _ ih => exact .change ih

theorem asksFirst_bind {p : Prog M α} {f : α → Prog M β} (hp : p.AsksFirst) (hf : ∀ a, (f a).ChangesOnly) :
    (p >>= f).AsksFirst := by
  induction hp with
  | ask _ ih => exact .ask ih
  | rest h => exact .rest (changesOnly_bind h hf)

inductive Prog.AsksOnly : Prog M α → Prop
  | done {r : Res α} : AsksOnly (.done r)
  | ask {q : M.Query} {k : M.Answer q → Prog M α} : (∀ a, AsksOnly (k a)) → AsksOnly (.ask q k)

theorem asksOnly_bind {p : Prog M α} {f : α → Prog M β} (hp : p.AsksOnly) (hf : ∀ a, (f a).AsksOnly) : (p >>= f).AsksOnly := by
  show (p.bind f).AsksOnly
  induction hp with
  | @done r =>
    cases r with
    | ok a => exact hf a
    | error e => exact .done
  | ask _ ih => exact .ask ih

theorem asksFirst_of_asksOnly {p : Prog M α} {f : α → Prog M β} (hp : p.AsksOnly) (hf : ∀ a, (f a).AsksFirst) :
    (p >>= f).AsksFirst := by
  show (p.bind f).AsksFirst
  induction hp with
  | @done r =>
    cases r with
    | ok a => exact hf a
    | error e => exact .rest .done
  | ask _ ih => exact .ask ih

theorem runs_trans {s1 s2 s3 : M.State} {p1 p2 p3 : List (Prog M α)} (h : Interleaved s1 p1 s2 p2) (h' : Interleaved s2 p2 s3 p3) :
    Interleaved s1 p1 s3 p3 := by
  induction h with
  | stop => exact h'
  | ask _ ih => exact .ask (ih h')
  | change _ ih => exact .change (ih h')

/-- One thread runs to its end. -/
theorem runs_one (p : Prog M α) : ∀ (s : M.State) (a b : List (Prog M α)),
    Interleaved s (a ++ p :: b) (M.applyAll s (p.alone s).1) (a ++ .done (p.alone s).2 :: b) := by
  induction p with
  | done r => exact fun s a b => .stop
  | ask q k ih => exact fun s a b => .ask (ih _ s a b)
  | change x k ih => exact fun s a b => .change (ih (M.apply s x) a b)

/-- Whatever has happened, the threads can go on to their ends. -/
theorem runs_finish (ps : List (Prog M α)) : ∀ (s : M.State) (a : List (Prog M α)), ∃ (s' : M.State) (rs : List (Res α)),
    Interleaved s (a ++ ps) s' (a ++ rs.map .done) := by
  induction ps with
  | nil => exact fun s a => ⟨s, [], .stop⟩
  | cons p ps ih =>
    intro s a
    obtain ⟨s', rs, h⟩ := ih (M.applyAll s (p.alone s).1) (a ++ [.done (p.alone s).2])
    refine ⟨s', (p.alone s).2 :: rs, runs_trans (runs_one p s a ps) ?_⟩
    rw [List.append_assoc, List.append_assoc] at h
    exact h

/-- A thread asks all its questions. -/
theorem runs_asks {p : Prog M α} (hp : p.AsksFirst) (s : M.State) :
    ∃ p' : Prog M α, p'.ChangesOnly ∧ p'.alone s = p.alone s ∧ ∀ a b, Interleaved s (a ++ p :: b) s (a ++ p' :: b) := by
  induction hp with
  | @ask q k _ ih =>
    obtain ⟨p', h1, h2, h3⟩ := ih (M.answer s q)
    exact ⟨p', h1, h2, fun a b => .ask (h3 a b)⟩
  | @rest p h => exact ⟨p, h, rfl, fun a b => .stop⟩

theorem changesOnly_alone {p : Prog M α} (hp : p.ChangesOnly) : ∀ s s', p.alone s = p.alone s' := by
  induction hp with
  | done => exact fun s s' => rfl
  | change _ ih =>
    intro s s'
    simp only [Prog.alone]
    rw [ih _ (M.apply s' _)]

/-- All threads ask before any of them changes anything: each gives what it gives alone. -/
theorem runs_snapshot (ps : List (Prog M α)) (h : ∀ p ∈ ps, p.AsksFirst) (s : M.State) :
    Finished s ps (M.applyAll s (ps.flatMap fun p => (p.alone s).1)) (ps.map fun p => (p.alone s).2) := by
  have h1 : ∀ (ps : List (Prog M α)), (∀ p ∈ ps, p.AsksFirst) → ∀ a, ∃ ps' : List (Prog M α), (∀ p ∈ ps', p.ChangesOnly) ∧
      ps'.map (fun p => p.alone s) = ps.map (fun p => p.alone s) ∧ Interleaved s (a ++ ps) s (a ++ ps') := by
    intro ps
    induction ps with
    | nil => exact fun _ a => ⟨[], (by intro p hp; cases hp), rfl, .stop⟩
    | cons p ps ih =>
      intro hps a
      obtain ⟨p', q1, q2, q3⟩ := runs_asks (hps p (List.mem_cons_self ..)) s
      obtain ⟨ps', r1, r2, r3⟩ := ih (fun x hx => hps x (List.mem_cons_of_mem _ hx)) (a ++ [p'])
      refine ⟨p' :: ps', ?_, ?_, ?_⟩
      · intro x hx
        rcases List.mem_cons.1 hx with rfl | hx
        · exact q1
        · exact r1 x hx
      · rw [List.map_cons, List.map_cons, q2, r2]
      · rw [List.append_assoc, List.append_assoc] at r3
        exact runs_trans (q3 a ps) r3
  have h2 : ∀ (ps : List (Prog M α)), (∀ p ∈ ps, p.ChangesOnly) → ∀ (t : M.State) (a : List (Prog M α)),
      Interleaved t (a ++ ps) (M.applyAll t (ps.flatMap fun p => (p.alone s).1)) (a ++ ps.map fun p => .done (p.alone s).2) := by
    intro ps
    induction ps with
    | nil => exact fun _ t a => .stop
    | cons p ps ih =>
      intro hps t a
      have e := changesOnly_alone (hps p (List.mem_cons_self ..)) t s
      have r1 := runs_one p t a ps
      rw [e] at r1
      have r2 := ih (fun x hx => hps x (List.mem_cons_of_mem _ hx)) (M.applyAll t (p.alone s).1) (a ++ [.done (p.alone s).2])
      rw [List.append_assoc, List.append_assoc] at r2
      rw [List.flatMap_cons, changes_append]
      exact runs_trans r1 r2
  obtain ⟨ps', r1, r2, r3⟩ := h1 ps h []
  have r4 := h2 ps' r1 s []
  unfold Finished
  rw [List.map_map]
  have e1 : (ps'.flatMap fun p => (p.alone s).1) = ps.flatMap fun p => (p.alone s).1 := by
    rw [List.flatMap_def, List.flatMap_def]
    have := congrArg (List.map Prod.fst) r2
    rw [List.map_map, List.map_map] at this
    exact congrArg List.flatten this
  have e2 : (ps'.map fun p => Prog.done (M := M) (p.alone s).2) = ps.map (fun p => Prog.done (p.alone s).2) := by
    have := congrArg (List.map fun x : List M.Change × Res α => Prog.done (M := M) x.2) r2
    rw [List.map_map, List.map_map] at this
    exact this
  rw [e1, e2] at r4
  exact runs_trans r3 r4

/-! Programs whose result is settled at one moment. -/

/-- The result depends on the stores at one moment: on all earlier questions, the answers that let the program go on asking are
never taken back. -/
inductive Prog.Momentary : Prog M α → Prop
  | rest {p : Prog M α} : p.ChangesOnly → Momentary p
  | ask {q : M.Query} {k : M.Answer q → Prog M α} (S : M.Answer q → Prop) :
      (∀ a, ¬ S a → (k a).ChangesOnly) → (∀ a, S a → ∀ s x, M.answer s q = a → M.answer (M.apply s x) q = a) →
      (∀ a, S a → Momentary (k a)) → Momentary (.ask q k)

theorem getElem?_swap {γ : Type} (a b : List γ) (x y : γ) (i : Nat) :
    (a ++ y :: b)[i]? = if i = a.length then some y else (a ++ x :: b)[i]? := by
  induction a generalizing i with
  | nil => cases i <;> simp
  | cons z a ih =>
    cases i with
    | zero => simp
    | succ i =>
      simp only [List.cons_append, List.getElem?_cons_succ, List.length_cons, Nat.add_right_cancel_iff]
      exact ih i

theorem getElem?_middle {γ : Type} (a b : List γ) (x : γ) : (a ++ x :: b)[a.length]? = some x := by
  rw [getElem?_swap a b x x, if_pos rfl]

theorem runs_changesOnly {s s' : M.State} {ps ps' : List (Prog M α)} (h : Interleaved s ps s' ps') :
    ∀ (i : Nat) (p : Prog M α) (r : Res α), ps[i]? = some p → ps'[i]? = some (.done r) → p.ChangesOnly → ∀ t, (p.alone t).2 = r := by
  induction h with
  | stop =>
    intro i p r h1 h2 _ t
    rw [h1] at h2
    cases h2
    rfl
  | @ask s s' a b ps' q k _ ih =>
    intro i p r h1 h2 hp t
    by_cases hi : i = a.length
    · subst hi
      rw [getElem?_middle] at h1
      cases h1
      cases hp
    · refine ih i p r ?_ h2 hp t
      rw [getElem?_swap a b (.ask q k), if_neg hi]
      exact h1
  | @change s s' a b ps' x k _ ih =>
    intro i p r h1 h2 hp t
    by_cases hi : i = a.length
    · subst hi
      rw [getElem?_middle] at h1
      cases h1
      cases hp with
      | change hk => exact ih _ k r (getElem?_middle a b k) h2 hk _
    · refine ih i p r ?_ h2 hp t
      rw [getElem?_swap a b (.change x k), if_neg hi]
      exact h1

theorem runs_stable {s s' : M.State} {ps ps' : List (Prog M α)} (h : Interleaved s ps s' ps') {q : M.Query} {v : M.Answer q}
    (hv : ∀ s x, M.answer s q = v → M.answer (M.apply s x) q = v) (hs : M.answer s q = v) : M.answer s' q = v := by
  induction h with
  | stop => exact hs
  | ask _ ih => exact ih hs
  | change _ ih => exact ih (hv _ _ hs)

/-- However the threads are interleaved, a program whose result is settled at one moment gives what it gives alone in the stores
as they were at that moment. -/
theorem runs_moment {s s' : M.State} {ps ps' : List (Prog M α)} (h : Interleaved s ps s' ps') :
    ∀ (i : Nat) (p : Prog M α) (r : Res α), ps[i]? = some p → ps'[i]? = some (.done r) → p.Momentary →
      ∃ m qs, Interleaved s ps m qs ∧ Interleaved m qs s' ps' ∧ (p.alone m).2 = r := by
  induction h with
  | @stop s ps =>
    intro i p r h1 h2 _
    rw [h1] at h2
    cases h2
    exact ⟨s, ps, .stop, .stop, rfl⟩
  | @ask s s' a b ps' q k hr ih =>
    intro i p r h1 h2 hp
    by_cases hi : i = a.length
    · subst hi
      rw [getElem?_middle] at h1
      cases h1
      cases hp with
      | rest h => cases h
      | ask S hc hs hm =>
        by_cases hS : S (M.answer s q)
        · obtain ⟨m, qs, r1, r2, r3⟩ := ih _ _ r (getElem?_middle a b _) h2 (hm _ hS)
          refine ⟨m, qs, .ask r1, r2, ?_⟩
          simp only [Prog.alone]
          rw [runs_stable r1 (hs _ hS) rfl]
          exact r3
        · exact ⟨s, _, .stop, .ask hr, runs_changesOnly hr _ _ r (getElem?_middle a b _) h2 (hc _ hS) s⟩
    · obtain ⟨m, qs, r1, r2, r3⟩ := ih i p r (by rw [getElem?_swap a b (.ask q k), if_neg hi]; exact h1) h2 hp
      exact ⟨m, qs, .ask r1, r2, r3⟩
  | @change s s' a b ps' x k hr ih =>
    intro i p r h1 h2 hp
    by_cases hi : i = a.length
    · subst hi
      rw [getElem?_middle] at h1
      cases h1
      exact ⟨s, _, .stop, .change hr, runs_changesOnly (.change hr) a.length _ r (getElem?_middle a b _) h2
        (by cases hp with | rest h => exact h) s⟩
    · obtain ⟨m, qs, r1, r2, r3⟩ := ih i p r (by rw [getElem?_swap a b (.change x k), if_neg hi]; exact h1) h2 hp
      exact ⟨m, qs, .change r1, r2, r3⟩

theorem changesOnly_of_momentary_bind {p : Prog M α} {f : α → Prog M β} (hp : p.Momentary) (hf : ∀ a, (f a).ChangesOnly) :
    (p >>= f).Momentary := by
  induction hp with
  | rest h => exact .rest (changesOnly_bind h hf)
  | ask S h1 h2 _ ih => exact .ask S (fun a ha => changesOnly_bind (h1 a ha) hf) h2 ih

/-! One after the other. -/

theorem alone_same {I : M.State → Prop} (hI : ∀ s x, I s → I (M.apply s x)) {p q : Prog M α} (h : Independent I p q) {s : M.State}
    (hs : I s) : q.alone (M.applyAll s (p.alone s).1) = q.alone s := by
  obtain ⟨F, G, w1, w2, w3, _⟩ := h
  exact alone_undisturbed_all hI w3 w2 (changes_within w1 s) s hs

theorem serial_same {I : M.State → Prop} (hI : ∀ s x, I s → I (M.apply s x)) : ∀ (ps : List (Prog M α)) (s : M.State), I s →
    ps.Pairwise (Independent I) →
    ps.foldl (fun s p => M.applyAll s (p.alone s).1) s = M.applyAll s (ps.flatMap fun p => (p.alone s).1) := by
  intro ps
  induction ps with
  | nil => exact fun s _ _ => rfl
  | cons p ps ih =>
    intro s hs hpair
    obtain ⟨hp1, hp2⟩ := List.pairwise_cons.1 hpair
    have hsame : ∀ (qs : List (Prog M α)), (∀ q ∈ qs, Independent I p q) →
        (qs.flatMap fun q => (q.alone (M.applyAll s (p.alone s).1)).1) = qs.flatMap fun q => (q.alone s).1 := by
      intro qs hq
      induction qs with
      | nil => rfl
      | cons q qs ihq =>
        rw [List.flatMap_cons, List.flatMap_cons, ihq fun q' hq' => hq q' (List.mem_cons_of_mem _ hq'),
          alone_same hI (hq q (List.mem_cons_self ..)) hs]
    rw [List.foldl_cons, ih _ (invariant_applyAll hI hs _) hp2, List.flatMap_cons, changes_append, hsame ps hp1]

end General

section
variable {M : Machine} {α β : Type}

theorem lift_bind (r : Res α) (f : α → Prog M β) (s : M.State) :
    ((liftM r : Prog M α) >>= f).alone s = match r with
      | .ok a => (f a).alone s
      | .error e => ([], .error e) := by
  cases r <;> rfl

end

section
variable [C : Crypto]

/-- The outcome of a call, as a pair. -/
def Outcome.pair {α : Type} (o : Outcome α) : List Write × Res α := (o.writes, o.result)

/-- A program on the stores of a party, running alone. -/
def Steps.alone {α : Type} (w : World) (p : Prog Stores α) : List Write × Res α := Prog.alone (M := Stores) w p

section
variable {α β : Type} (w : World)
omit C
open Steps

theorem sdone (r : Res α) : Steps.alone w (.done r) = ([], r) := rfl
theorem spure (a : α) : Steps.alone w (pure a) = ([], .ok a) := rfl
theorem sraise (e : Err) : Steps.alone w (Prog.raise e : Prog Stores α) = ([], .error e) := rfl
theorem slift (r : Res α) (f : α → Prog Stores β) :
    Steps.alone w ((liftM r : Prog Stores α) >>= f) = match r with
      | .ok a => Steps.alone w (f a)
      | .error e => ([], .error e) := by
  cases r <;> rfl
theorem slift' (r : Res α) : Steps.alone w (liftM r : Prog Stores α) = ([], r) := rfl
theorem sload (a : Address) (f : SessionRecord → Prog Stores β) :
    Steps.alone w (loadSession a >>= f) = Steps.alone w (f (w.loadSession a)) := rfl
theorem scontains (a : Address) (f : Bool → Prog Stores β) :
    Steps.alone w (containsSession a >>= f) = Steps.alone w (f (w.containsSession a)) := rfl
theorem strusted (n : String) (k : ECPub) (f : Bool → Prog Stores β) :
    Steps.alone w (isTrustedIdentity n k >>= f) = Steps.alone w (f (w.isTrusted n k)) := rfl
theorem sidentity (f : KeyPair → Prog Stores β) :
    Steps.alone w (getIdentityKeyPair >>= f) = Steps.alone w (f w.identityKeyPair) := rfl
theorem sregistration (f : Int → Prog Stores β) :
    Steps.alone w (getLocalRegistrationId >>= f) = Steps.alone w (f w.registrationId) := rfl
theorem spreKey (i : Nat) (f : PreKeyRecord → Prog Stores β) :
    Steps.alone w (loadPreKey i >>= f) = match w.loadPreKey i with
      | .ok a => Steps.alone w (f a) | .error e => ([], .error e) := by
  show Prog.alone (M := Stores) w (Prog.bind (Prog.done (M := Stores) (w.loadPreKey i)) f) = _
  cases w.loadPreKey i <;> rfl
theorem ssignedPreKey (i : Nat) (f : SignedPreKeyRecord → Prog Stores β) :
    Steps.alone w (loadSignedPreKey i >>= f) = match w.loadSignedPreKey i with
      | .ok a => Steps.alone w (f a) | .error e => ([], .error e) := by
  show Prog.alone (M := Stores) w (Prog.bind (Prog.done (M := Stores) (w.loadSignedPreKey i)) f) = _
  cases w.loadSignedPreKey i <;> rfl
theorem sstore (a : Address) (r : SessionRecord) (f : Unit → Prog Stores β) :
    Steps.alone w (storeSession a r >>= f) = (.session a r :: (Steps.alone (w.apply (.session a r)) (f ())).1,
      (Steps.alone (w.apply (.session a r)) (f ())).2) := rfl
theorem ssave (n : String) (k : ECPub) (f : Unit → Prog Stores β) :
    Steps.alone w (saveIdentity n k >>= f) = (.identity n k :: (Steps.alone (w.apply (.identity n k)) (f ())).1,
      (Steps.alone (w.apply (.identity n k)) (f ())).2) := rfl
theorem ssave' (n : String) (k : ECPub) : Steps.alone w (saveIdentity n k) = ([.identity n k], .ok ()) := rfl
theorem sremove (i : Nat) (f : Unit → Prog Stores β) :
    Steps.alone w (removePreKey i >>= f) = (.removePreKey i :: (Steps.alone (w.apply (.removePreKey i)) (f ())).1,
      (Steps.alone (w.apply (.removePreKey i)) (f ())).2) := rfl
theorem sbind (p : Prog Stores α) (f : α → Prog Stores β) :
    Steps.alone w (p >>= f) = match (Steps.alone w p).2 with
      | .ok a => ((Steps.alone w p).1 ++ (Steps.alone (w.applyAll (Steps.alone w p).1) (f a)).1,
          (Steps.alone (w.applyAll (Steps.alone w p).1) (f a)).2)
      | .error e => ((Steps.alone w p).1, .error e) := alone_bind p f w

end

theorem steps_encrypt (w : World) (a : Address) (pt : Bytes) :
    Steps.alone w (Steps.encrypt a pt) = (SessionCipher.encrypt w a pt).pair := by
  unfold Steps.encrypt SessionCipher.encrypt
  rw [sload, slift]
  dsimp only
  cases SessionCipher.encryptWithState (w.loadSession a).sessionState pt <;> rfl

theorem steps_decryptMsg (w : World) (a : Address) (m : WhisperMessage) (seed : Bytes) (seeds : Nat → Bytes) :
    Steps.alone w (Steps.decryptMsg a m seed seeds) = (SessionCipher.decryptMsg w a m seed seeds).pair := by
  unfold Steps.decryptMsg SessionCipher.decryptMsg
  rw [scontains]
  split
  · rfl
  · rw [sload, slift]
    cases SessionCipher.decryptWithSessionRecord (w.loadSession a) m seed seeds <;> rfl

omit C in
theorem pbind {M : Machine} {α β : Type} (a : α) (f : α → Prog M β) : ((pure a : Prog M α) >>= f) = f a := rfl

section
omit C
variable {α β : Type} {w : World}

theorem ro_lift {r : Res α} {f : α → Prog Stores β} {g : α → Res β} (h : ∀ a, Steps.alone w (f a) = ([], g a)) :
    Steps.alone w ((liftM r : Prog Stores α) >>= f) = ([], r >>= g) := by
  cases r with
  | ok a => exact h a
  | error e => rfl

theorem ro_preKey {i : Nat} {f : PreKeyRecord → Prog Stores β} {g : PreKeyRecord → Res β}
    (h : ∀ a, Steps.alone w (f a) = ([], g a)) : Steps.alone w (Steps.loadPreKey i >>= f) = ([], w.loadPreKey i >>= g) := by
  rw [spreKey]
  cases w.loadPreKey i with
  | ok a => exact h a
  | error e => rfl

theorem ro_signedPreKey {i : Nat} {f : SignedPreKeyRecord → Prog Stores β} {g : SignedPreKeyRecord → Res β}
    (h : ∀ a, Steps.alone w (f a) = ([], g a)) :
    Steps.alone w (Steps.loadSignedPreKey i >>= f) = ([], w.loadSignedPreKey i >>= g) := by
  rw [ssignedPreKey]
  cases w.loadSignedPreKey i with
  | ok a => exact h a
  | error e => rfl

theorem pair_lift {r : Res α} {f : α → Prog Stores β} {g : α → Res (List Write × β)}
    (h : ∀ a, Steps.alone w (f a) = (Outcome.ofRes (g a)).pair) :
    Steps.alone w ((liftM r : Prog Stores α) >>= f) = (Outcome.ofRes (r >>= g)).pair := by
  cases r with
  | ok a => exact h a
  | error e => rfl

end

theorem steps_processV3 (w : World) (r : SessionRecord) (m : PreKeyWhisperMessage) :
    Steps.alone w (Steps.processV3 r m) = ([], SessionBuilder.processV3 w r m) := by
  unfold Steps.processV3 SessionBuilder.processV3
  split
  · rfl
  · refine ro_signedPreKey fun spk => ro_lift fun kp => ?_
    rw [sidentity]
    cases m.preKeyId with
    | none =>
      simp only [pbind]
      refine ro_lift fun s => ?_
      rw [sregistration]
      exact ro_lift fun s => ro_lift fun s => rfl
    | some i =>
      simp only []
      refine ro_preKey fun pk => ro_lift fun kp' => ?_
      rw [pbind]
      refine ro_lift fun s => ?_
      rw [sregistration]
      exact ro_lift fun s => ro_lift fun s => rfl

theorem steps_process (w : World) (a : Address) (r : SessionRecord) (m : PreKeyWhisperMessage) :
    Steps.alone w (Steps.process a r m) = (SessionBuilder.process w a r m).pair := by
  unfold Steps.process SessionBuilder.process
  rw [strusted]
  split
  · rfl
  · rw [sbind, steps_processV3]
    cases SessionBuilder.processV3 w r m <;> rfl

theorem steps_decryptPkmsg (w : World) (a : Address) (m : PreKeyWhisperMessage) (seed : Bytes) (seeds : Nat → Bytes) :
    Steps.alone w (Steps.decryptPkmsg a m seed seeds) = (SessionCipher.decryptPkmsg w a m seed seeds).pair := by
  unfold Steps.decryptPkmsg SessionCipher.decryptPkmsg
  rw [sload, sbind, steps_process]
  generalize SessionBuilder.process w a (w.loadSession a) m = o
  obtain ⟨ws, res⟩ := o
  cases res with
  | error e => rfl
  | ok x =>
    obtain ⟨r, id⟩ := x
    simp only [Outcome.pair]
    rw [slift]
    cases SessionCipher.decryptWithSessionRecord r m.message seed seeds with
    | error e => simp
    | ok y =>
      obtain ⟨pt, r'⟩ := y
      simp only [sstore]
      cases id with
      | none => simp [spure]
      | some i => simp [spure, sremove]

theorem steps_bundle (w : World) (a : Address) (b : PreKeyBundle) (s1 s2 : Bytes) :
    Steps.alone w (Steps.processPreKeyBundle a b s1 s2) = (SessionBuilder.processPreKeyBundle w a b s1 s2).pair := by
  unfold Steps.processPreKeyBundle SessionBuilder.processPreKeyBundle
  rw [strusted]
  split
  · rfl
  · cases b.signedPreKey with
    | none => rfl
    | some k =>
      refine pair_lift fun ok => ?_
      split
      · rfl
      · rw [sload]
        simp only []
        rw [sidentity]
        refine pair_lift fun s => pair_lift fun s => ?_
        rw [sregistration]
        exact pair_lift fun s => pair_lift fun s => rfl

theorem steps_initiate (w : World) (a : Address) (m : KeyExchangeMessage) (rnd : SessionBuilder.InitiateRand) :
    Steps.alone w (Steps.processInitiate a m rnd) = (SessionBuilder.processInitiate w a m rnd).pair := by
  unfold Steps.processInitiate SessionBuilder.processInitiate SessionBuilder.processInitiateState
  rw [sload, slift]
  simp only []
  cases Curve.verifySignature m.identityKey (Curve.serializePoint m.baseKey) m.baseKeySignature with
  | error e => rfl
  | ok ok =>
    simp only [ok_bind]
    split
    · rfl
    · have key : ∀ (flags : Nat) (ik bk rk : KeyPair),
          Steps.alone w (do
            let s ← liftM (RatchetingSession.initializeSession
              (SessionBuilder.archiveUnlessFresh (w.loadSession a)).sessionState
              { ourBaseKey := bk, ourRatchetKey := rk, ourIdentityKey := ik, theirBaseKey := m.baseKey,
                theirRatchetKey := m.ratchetKey, theirIdentityKey := m.identityKey } rnd.sendSeed)
            Steps.storeSession a ((SessionBuilder.archiveUnlessFresh (w.loadSession a)).setState s)
            Steps.saveIdentity a.1 m.identityKey
            let sig ← liftM (Curve.calculateSignature rnd.sigRand ik.priv (Curve.serializePoint bk.pub))
            let resp ← liftM (KeyExchangeMessage.create
              ((SessionBuilder.archiveUnlessFresh (w.loadSession a)).setState s).sessionState.getSessionVersion m.sequence flags
              bk.pub sig rk.pub ik.pub)
            pure (some resp)) = 
          (match (do
              let s ← RatchetingSession.initializeSession
                (SessionBuilder.archiveUnlessFresh (w.loadSession a)).sessionState
                { ourBaseKey := bk, ourRatchetKey := rk, ourIdentityKey := ik, theirBaseKey := m.baseKey,
                  theirRatchetKey := m.ratchetKey, theirIdentityKey := m.identityKey } rnd.sendSeed
              Except.ok ((SessionBuilder.archiveUnlessFresh (w.loadSession a)).setState s, flags,
                ({ ourBaseKey := bk, ourRatchetKey := rk, ourIdentityKey := ik, theirBaseKey := m.baseKey,
                   theirRatchetKey := m.ratchetKey, theirIdentityKey := m.identityKey } : SymmetricParameters)) :
              Res (SessionRecord × Nat × SymmetricParameters)) with
            | .error e => (⟨[], .error e⟩ : Outcome (Option KeyExchangeMessage))
            | .ok (r, flags, p) =>
              ⟨[.session a r, .identity a.1 m.identityKey], do
                let sig ← Curve.calculateSignature rnd.sigRand p.ourIdentityKey.priv
                  (Curve.serializePoint p.ourBaseKey.pub)
                let resp ← KeyExchangeMessage.create r.sessionState.getSessionVersion m.sequence flags
                  p.ourBaseKey.pub sig p.ourRatchetKey.pub p.ourIdentityKey.pub
                .ok (some resp)⟩).pair := by
        intro flags ik bk rk
        rw [slift]
        cases RatchetingSession.initializeSession _ _ rnd.sendSeed with
        | error e => rfl
        | ok s =>
          simp only [ok_bind]
          rw [sstore, ssave, ro_lift (g := fun sig => do
            let resp ← KeyExchangeMessage.create
              ((SessionBuilder.archiveUnlessFresh (w.loadSession a)).setState s).sessionState.getSessionVersion m.sequence flags
              bk.pub sig rk.pub ik.pub
            .ok (some resp)) (fun sig => ro_lift fun resp => rfl)]
          rfl
      split
      · rw [sidentity, pbind]
        exact key ..
      · rw [slift]
        cases (w.loadSession a).sessionState.getPendingKeyExchangeIdentityKey with
        | error e => rfl
        | ok ik =>
          simp only [ok_bind]
          rw [slift]
          cases (w.loadSession a).sessionState.getPendingKeyExchangeBaseKey with
          | error e => rfl
          | ok bk =>
            simp only [ok_bind]
            rw [slift]
            cases (w.loadSession a).sessionState.getPendingKeyExchangeRatchetKey with
            | error e => rfl
            | ok rk => exact key ..

theorem steps_response (w : World) (a : Address) (m : KeyExchangeMessage) (seed : Bytes) :
    Steps.alone w (Steps.processResponse a m seed) = (SessionBuilder.processResponse w a m seed).pair := by
  unfold Steps.processResponse SessionBuilder.processResponse
  rw [sload]
  simp only []
  split
  · split <;> rfl
  · refine pair_lift fun bk => pair_lift fun rk => pair_lift fun ik => pair_lift fun s => pair_lift fun ok => ?_
    split <;> rfl

theorem steps_exchange (w : World) (a : Address) (m : KeyExchangeMessage) (rnd : SessionBuilder.InitiateRand) :
    Steps.alone w (Steps.processKeyExchangeMessage a m rnd) = (SessionBuilder.processKeyExchangeMessage w a m rnd).pair := by
  unfold Steps.processKeyExchangeMessage SessionBuilder.processKeyExchangeMessage
  rw [strusted]
  split
  · rfl
  · split
    · exact steps_initiate w a m rnd
    · exact steps_response w a m _

omit C in
theorem steps_init_shape {β : Type} (w : World) (a : Address) (x : Res Bytes) (set : SessionRecord → Res SessionState)
    (mk : Bytes → Res β) :
    Steps.alone w (do
      let sig ← liftM x
      let r ← Steps.loadSession a
      let s ← liftM (set r)
      Steps.storeSession a (r.setState s)
      liftM (mk sig)) =
    (match (do
        let sig ← x
        let s ← set (w.loadSession a)
        Except.ok (sig, (w.loadSession a).setState s) : Res (Bytes × SessionRecord)) with
      | .error e => (⟨[], .error e⟩ : Outcome β)
      | .ok (sig, r) => ⟨[.session a r], mk sig⟩).pair := by
  rw [slift]
  cases x with
  | error e => rfl
  | ok sig =>
    simp only [ok_bind]
    rw [sload, slift]
    cases set (w.loadSession a) with
    | error e => rfl
    | ok s => rfl

theorem steps_init (w : World) (a : Address) (n : Nat) (s1 s2 s3 : Bytes) :
    Steps.alone w (Steps.processInitKeyExchangeMessage a n s1 s2 s3) =
      (SessionBuilder.processInitKeyExchangeMessage w a n s1 s2 s3).pair := by
  unfold Steps.processInitKeyExchangeMessage SessionBuilder.processInitKeyExchangeMessage
  exact steps_init_shape w a _
    (fun r => r.sessionState.setPendingKeyExchange (n + 1) (Curve.generateKeyPair s1) (Curve.generateKeyPair s2) w.identityKeyPair) _

/-! ## What the calls ask and change -/

/-- What a call may ask and change. -/
def Call.footprint (c : Call) : Footprint Stores where
  asks
    | .containsSession a | .loadSession a => a = c.addr
    | .isTrustedIdentity n _ => usesIdentity c ∧ n = c.addr.1
    | .getIdentityKeyPair | .getLocalRegistrationId | .loadSignedPreKey _ => True
    | .loadPreKey i => preKeyNamed c = some i
  changes
    | .session a _ => a = c.addr
    | .identity n _ => usesIdentity c ∧ n = c.addr.1
    | .removePreKey i => preKeyNamed c = some i

/-- Running alone, the program of a call does what the call does. -/
theorem prog_alone (w : World) (c : Call) : Prog.alone (M := Stores) w c.prog = ((c.run w).writes, (c.run w).result) := by
  have key : ∀ {α : Type} (p : Prog Stores α) (f : α → Reply) (o : Outcome α), Steps.alone w p = o.pair →
      Steps.alone w (p >>= fun x => pure (f x)) = ((Call.mapOutcome f o).writes, (Call.mapOutcome f o).result) := by
    intro α p f o h
    rw [sbind, h]
    obtain ⟨ws, r⟩ := o
    cases r with
    | error e => rfl
    | ok x => simp only [Outcome.pair, spure, List.append_nil, Call.mapOutcome]
  cases c with
  | encrypt a p => exact key _ _ _ (steps_encrypt w a p)
  | decryptMsg a m s ss => exact key _ _ _ (steps_decryptMsg w a m s ss)
  | decryptPkmsg a m s ss => exact key _ _ _ (steps_decryptPkmsg w a m s ss)
  | processBundle a b s1 s2 => exact key _ _ _ (steps_bundle w a b s1 s2)
  | processKeyExchange a m r => exact key _ _ _ (steps_exchange w a m r)
  | initKeyExchange a n s1 s2 s3 => exact key _ _ _ (steps_init w a n s1 s2 s3)

section
omit C
variable {F : Footprint Stores} {α β : Type}

theorem win_lift {r : Res α} {f : α → Prog Stores β} (h : ∀ a, (f a).Within F) : ((liftM r : Prog Stores α) >>= f).Within F :=
  within_bind .done h
theorem win_load {a : Address} {f : SessionRecord → Prog Stores β} (ha : F.asks (.loadSession a)) (h : ∀ a, (f a).Within F) :
    (Steps.loadSession a >>= f).Within F := within_bind (.ask ha fun _ => .done) h
theorem win_contains {a : Address} {f : Bool → Prog Stores β} (ha : F.asks (.containsSession a)) (h : ∀ a, (f a).Within F) :
    (Steps.containsSession a >>= f).Within F := within_bind (.ask ha fun _ => .done) h
theorem win_trusted {n : String} {k : ECPub} {f : Bool → Prog Stores β} (ha : F.asks (.isTrustedIdentity n k))
    (h : ∀ a, (f a).Within F) : (Steps.isTrustedIdentity n k >>= f).Within F := within_bind (.ask ha fun _ => .done) h
theorem win_identity {f : KeyPair → Prog Stores β} (ha : F.asks .getIdentityKeyPair)
    (h : ∀ a, (f a).Within F) : (Steps.getIdentityKeyPair >>= f).Within F := within_bind (.ask ha fun _ => .done) h
theorem win_registration {f : Int → Prog Stores β} (ha : F.asks .getLocalRegistrationId)
    (h : ∀ a, (f a).Within F) : (Steps.getLocalRegistrationId >>= f).Within F := within_bind (.ask ha fun _ => .done) h
theorem win_preKey {i : Nat} {f : PreKeyRecord → Prog Stores β} (ha : F.asks (.loadPreKey i))
    (h : ∀ a, (f a).Within F) : (Steps.loadPreKey i >>= f).Within F := within_bind (.ask ha fun _ => .done) h
theorem win_signedPreKey {i : Nat} {f : SignedPreKeyRecord → Prog Stores β} (ha : F.asks (.loadSignedPreKey i))
    (h : ∀ a, (f a).Within F) : (Steps.loadSignedPreKey i >>= f).Within F := within_bind (.ask ha fun _ => .done) h
theorem win_store {a : Address} {r : SessionRecord} {f : Unit → Prog Stores β} (ha : ∀ r, F.changes (.session a r))
    (h : ∀ a, (f a).Within F) : (Steps.storeSession a r >>= f).Within F := within_bind (.change (ha r) .done) h
theorem win_save {n : String} {k : ECPub} {f : Unit → Prog Stores β} (ha : ∀ k, F.changes (.identity n k))
    (h : ∀ a, (f a).Within F) : (Steps.saveIdentity n k >>= f).Within F := within_bind (.change (ha k) .done) h
theorem win_remove {i : Nat} {f : Unit → Prog Stores β} (ha : F.changes (.removePreKey i))
    (h : ∀ a, (f a).Within F) : (Steps.removePreKey i >>= f).Within F := within_bind (.change ha .done) h

end

/-- The prekey that `processV3` says is used up is the one the message names. -/
theorem processV3_yields (r : SessionRecord) (m : PreKeyWhisperMessage) :
    (Steps.processV3 r m).Yields (fun x => ∀ i, x.2 = some i → m.preKeyId = some i) := by
  unfold Steps.processV3
  split
  · exact .ok (fun i h => by cases h)
  · refine yields_bind fun _ => yields_bind fun _ => yields_bind fun _ => ?_
    cases m.preKeyId with
    | none =>
      dsimp only
      rw [pbind]
      exact yields_bind fun _ => yields_bind fun _ => yields_bind fun _ => yields_bind fun _ => .ok fun i h => by cases h
    | some j =>
      refine yields_bind fun _ => yields_bind fun _ => ?_
      rw [pbind]
      refine yields_bind fun _ => yields_bind fun _ => yields_bind fun _ => yields_bind fun _ => .ok fun i h => ?_
      dsimp only at h
      split at h
      · exact h
      · cases h

theorem processV3_within {F : Footprint Stores} (r : SessionRecord) (m : PreKeyWhisperMessage)
    (h1 : ∀ i, F.asks (.loadSignedPreKey i)) (h2 : F.asks .getIdentityKeyPair) (h3 : F.asks .getLocalRegistrationId)
    (h4 : ∀ i, m.preKeyId = some i → F.asks (.loadPreKey i)) : (Steps.processV3 r m).Within F := by
  unfold Steps.processV3
  split
  · exact .done
  · refine win_signedPreKey (h1 _) fun _ => win_lift fun _ => win_identity h2 fun _ => ?_
    cases hi : m.preKeyId with
    | none =>
      dsimp only
      rw [pbind]
      exact win_lift fun _ => win_registration h3 fun _ => win_lift fun _ => win_lift fun _ => .done
    | some j =>
      refine win_preKey (h4 j hi) fun _ => win_lift fun _ => ?_
      rw [pbind]
      exact win_lift fun _ => win_registration h3 fun _ => win_lift fun _ => win_lift fun _ => .done

/-- A call keeps within its footprint. -/
theorem prog_within (c : Call) : c.prog.Within c.footprint := by
  cases c with
  | encrypt a p =>
    refine within_bind ?_ fun _ => .done
    exact win_load rfl fun _ => win_lift fun _ => win_store (fun _ => rfl) fun _ => .done
  | decryptMsg a m s ss =>
    refine within_bind ?_ fun _ => .done
    refine win_contains rfl fun b => ?_
    split
    · exact .done
    · exact win_load rfl fun _ => win_lift fun _ => win_store (fun _ => rfl) fun _ => .done
  | decryptPkmsg a m s ss =>
    refine within_bind ?_ fun _ => .done
    refine win_load rfl fun r => ?_
    refine within_bind_yields (R := fun x => ∀ i, x.2 = some i → m.preKeyId = some i) ?_ ?_ fun x hx => ?_
    · unfold Steps.process
      refine win_trusted ⟨trivial, rfl⟩ fun b => ?_
      split
      · exact .done
      · exact within_bind (processV3_within r m (fun _ => trivial) trivial trivial fun i h => h) fun _ =>
          win_save (fun _ => ⟨trivial, rfl⟩) fun _ => .done
    · unfold Steps.process
      refine yields_bind fun b => ?_
      split
      · exact .error
      · exact yields_bind' (processV3_yields r m) fun x hx => yields_bind fun _ => .ok hx
    · refine win_lift fun y => win_store (fun _ => rfl) fun _ => ?_
      split
      · rename_i i hi
        exact win_remove (hx i hi) fun _ => .done
      · exact .done
  | processBundle a b s1 s2 =>
    refine within_bind ?_ fun _ => .done
    refine win_trusted ⟨trivial, rfl⟩ fun t => ?_
    split
    · exact .done
    · cases b.signedPreKey with
      | none => exact .done
      | some k =>
        refine win_lift fun ok => ?_
        split
        · exact .done
        · refine win_load rfl fun _ => win_identity trivial fun _ => win_lift fun _ => win_lift fun _ =>
            win_registration trivial fun _ => win_lift fun _ => win_lift fun _ => win_store (fun _ => rfl) fun _ => ?_
          exact .change ⟨trivial, rfl⟩ .done
  | processKeyExchange a m r =>
    refine within_bind ?_ fun _ => .done
    refine win_trusted ⟨trivial, rfl⟩ fun t => ?_
    split
    · exact .done
    split
    · refine win_load rfl fun _ => win_lift fun ok => ?_
      split
      · exact .done
      · dsimp only
        split
        · refine win_identity trivial fun _ => ?_
          rw [pbind]
          exact win_lift fun _ => win_store (fun _ => rfl) fun _ => win_save (fun _ => ⟨trivial, rfl⟩) fun _ => win_lift fun _ =>
            win_lift fun _ => .done
        · refine win_lift fun _ => win_lift fun _ => win_lift fun _ => ?_
          rw [pbind]
          exact win_lift fun _ => win_store (fun _ => rfl) fun _ => win_save (fun _ => ⟨trivial, rfl⟩) fun _ => win_lift fun _ =>
            win_lift fun _ => .done
    · refine win_load rfl fun _ => ?_
      dsimp only
      split
      · split
        · exact .done
        · exact .done
      · refine win_lift fun _ => win_lift fun _ => win_lift fun _ => win_lift fun _ => win_lift fun ok => ?_
        split
        · exact .done
        · exact win_store (fun _ => rfl) fun _ => win_save (fun _ => ⟨trivial, rfl⟩) fun _ => .done
  | initKeyExchange a n s1 s2 s3 =>
    refine within_bind ?_ fun _ => .done
    exact win_identity trivial fun _ => win_lift fun _ => win_load rfl fun _ => win_lift fun _ => win_store (fun _ => rfl) fun _ =>
      .done

section
omit C
variable {α β : Type}

theorem af_lift {r : Res α} {f : α → Prog Stores β} (h : ∀ a, (f a).AsksFirst) : ((liftM r : Prog Stores α) >>= f).AsksFirst :=
  asksFirst_of_asksOnly .done h
theorem af_load {a : Address} {f : SessionRecord → Prog Stores β} (h : ∀ a, (f a).AsksFirst) :
    (Steps.loadSession a >>= f).AsksFirst := asksFirst_of_asksOnly (.ask fun _ => .done) h
theorem af_contains {a : Address} {f : Bool → Prog Stores β} (h : ∀ a, (f a).AsksFirst) :
    (Steps.containsSession a >>= f).AsksFirst := asksFirst_of_asksOnly (.ask fun _ => .done) h
theorem af_trusted {n : String} {k : ECPub} {f : Bool → Prog Stores β} (h : ∀ a, (f a).AsksFirst) :
    (Steps.isTrustedIdentity n k >>= f).AsksFirst := asksFirst_of_asksOnly (.ask fun _ => .done) h
theorem af_identity {f : KeyPair → Prog Stores β} (h : ∀ a, (f a).AsksFirst) : (Steps.getIdentityKeyPair >>= f).AsksFirst :=
  asksFirst_of_asksOnly (.ask fun _ => .done) h
theorem af_registration {f : Int → Prog Stores β} (h : ∀ a, (f a).AsksFirst) : (Steps.getLocalRegistrationId >>= f).AsksFirst :=
  asksFirst_of_asksOnly (.ask fun _ => .done) h
theorem co_lift {r : Res α} {f : α → Prog Stores β} (h : ∀ a, (f a).ChangesOnly) : ((liftM r : Prog Stores α) >>= f).ChangesOnly :=
  changesOnly_bind .done h
theorem co_store {a : Address} {r : SessionRecord} {f : Unit → Prog Stores β} (h : ∀ a, (f a).ChangesOnly) :
    (Steps.storeSession a r >>= f).ChangesOnly := changesOnly_bind (.change .done) h
theorem co_save {n : String} {k : ECPub} {f : Unit → Prog Stores β} (h : ∀ a, (f a).ChangesOnly) :
    (Steps.saveIdentity n k >>= f).ChangesOnly := changesOnly_bind (.change .done) h
theorem co_remove {i : Nat} {f : Unit → Prog Stores β} (h : ∀ a, (f a).ChangesOnly) :
    (Steps.removePreKey i >>= f).ChangesOnly := changesOnly_bind (.change .done) h
end

theorem processV3_asksOnly (r : SessionRecord) (m : PreKeyWhisperMessage) : (Steps.processV3 r m).AsksOnly := by
  unfold Steps.processV3
  have ho : ∀ {α β : Type} {r : Res α} {f : α → Prog Stores β}, (∀ a, (f a).AsksOnly) → ((liftM r : Prog Stores α) >>= f).AsksOnly :=
    fun h => asksOnly_bind .done h
  have h1 : ∀ {i : Nat}, (Steps.loadSignedPreKey i : Prog Stores _).AsksOnly := .ask fun _ => .done
  have h2 : (Steps.getIdentityKeyPair : Prog Stores _).AsksOnly := .ask fun _ => .done
  have h3 : (Steps.getLocalRegistrationId : Prog Stores _).AsksOnly := .ask fun _ => .done
  have h4 : ∀ {i : Nat}, (Steps.loadPreKey i : Prog Stores _).AsksOnly := .ask fun _ => .done
  split
  · exact .done
  · refine asksOnly_bind h1 fun _ => ho fun _ => asksOnly_bind h2 fun _ => ?_
    cases m.preKeyId with
    | none =>
      dsimp only
      rw [pbind]
      exact ho fun _ => asksOnly_bind h3 fun _ => ho fun _ => ho fun _ => .done
    | some j =>
      refine asksOnly_bind h4 fun _ => ho fun _ => ?_
      rw [pbind]
      exact ho fun _ => asksOnly_bind h3 fun _ => ho fun _ => ho fun _ => .done

/-- Every call asks everything before it changes anything. -/
theorem prog_asksFirst (c : Call) : c.prog.AsksFirst := by
  cases c with
  | encrypt a p =>
    refine asksFirst_bind ?_ fun _ => .done
    exact af_load fun _ => af_lift fun _ => .rest (co_store fun _ => .done)
  | decryptMsg a m s ss =>
    refine asksFirst_bind ?_ fun _ => .done
    refine af_contains fun b => ?_
    split
    · exact .rest .done
    · exact af_load fun _ => af_lift fun _ => .rest (co_store fun _ => .done)
  | decryptPkmsg a m s ss =>
    refine asksFirst_bind ?_ fun _ => .done
    refine af_load fun r => ?_
    refine asksFirst_bind ?_ fun x => ?_
    · unfold Steps.process
      refine af_trusted fun b => ?_
      split
      · exact .rest .done
      · exact asksFirst_of_asksOnly (processV3_asksOnly r m) fun _ => .rest (co_save fun _ => .done)
    · refine co_lift fun y => co_store fun _ => ?_
      split
      · exact co_remove fun _ => .done
      · exact .done
  | processBundle a b s1 s2 =>
    refine asksFirst_bind ?_ fun _ => .done
    refine af_trusted fun t => ?_
    split
    · exact .rest .done
    · cases b.signedPreKey with
      | none => exact .rest .done
      | some k =>
        refine af_lift fun ok => ?_
        split
        · exact .rest .done
        · refine af_load fun _ => af_identity fun _ => af_lift fun _ => af_lift fun _ =>
            af_registration fun _ => af_lift fun _ => af_lift fun _ => .rest (co_store fun _ => ?_)
          exact .change .done
  | processKeyExchange a m r =>
    refine asksFirst_bind ?_ fun _ => .done
    refine af_trusted fun t => ?_
    split
    · exact .rest .done
    split
    · refine af_load fun _ => af_lift fun ok => ?_
      split
      · exact .rest .done
      · dsimp only
        split
        · refine af_identity fun _ => ?_
          rw [pbind]
          exact af_lift fun _ => .rest (co_store fun _ => co_save fun _ => co_lift fun _ => co_lift fun _ => .done)
        · refine af_lift fun _ => af_lift fun _ => af_lift fun _ => ?_
          rw [pbind]
          exact af_lift fun _ => .rest (co_store fun _ => co_save fun _ => co_lift fun _ => co_lift fun _ => .done)
    · refine af_load fun _ => ?_
      dsimp only
      split
      · split
        · exact .rest .done
        · exact .rest .done
      · refine af_lift fun _ => af_lift fun _ => af_lift fun _ => af_lift fun _ => af_lift fun ok => ?_
        split
        · exact .rest .done
        · exact .rest (co_store fun _ => co_save fun _ => .done)
  | initKeyExchange a n s1 s2 s3 =>
    refine asksFirst_bind ?_ fun _ => .done
    exact af_identity fun _ => af_lift fun _ => af_load fun _ => af_lift fun _ => .rest (co_store fun _ => .done)

/-! ## Threads of calls -/

/-- What a thread of calls may ask and change. -/
def Call.footprints (cs : List Call) : Footprint Stores where
  asks q := ∃ c ∈ cs, c.footprint.asks q
  changes x := ∃ c ∈ cs, c.footprint.changes x

theorem thread_within (cs : List Call) : (Call.thread cs).Within (Call.footprints cs) := by
  induction cs with
  | nil => exact .done
  | cons c cs ih =>
    refine within_bind (within_outcome (within_mono (prog_within c) ?_ ?_)) fun r => within_bind (within_mono ih ?_ ?_) fun _ => .done
    · exact fun q hq => ⟨c, List.mem_cons_self .., hq⟩
    · exact fun x hx => ⟨c, List.mem_cons_self .., hx⟩
    · rintro q ⟨d, hd, hq⟩
      exact ⟨d, List.mem_cons_of_mem _ hd, hq⟩
    · rintro q ⟨d, hd, hq⟩
      exact ⟨d, List.mem_cons_of_mem _ hd, hq⟩

/-- A thread alone is a history. -/
theorem thread_alone (cs : List Call) : ∀ w : World, ∃ ws : List Write, Prog.alone (M := Stores) w (Call.thread cs) = (ws, .ok (Call.replies w cs)) ∧
    Stores.applyAll w ws = Call.after w cs := by
  induction cs with
  | nil => exact fun w => ⟨[], rfl, rfl⟩
  | cons c cs ih =>
    intro w
    obtain ⟨ws, h1, h2⟩ := ih (c.next w)
    exact ⟨(c.run w).writes ++ ws, alone_cons (prog_alone w c) h1, (changes_append (M := Stores) w _ _).trans h2⟩

omit C in
theorem upd_comm {α β : Type} [DecidableEq α] (f : α → β) {a b : α} (h : a ≠ b) (x y : β) :
    upd (upd f a x) b y = upd (upd f b y) a x := by
  funext z
  simp only [upd]
  by_cases h1 : z = b
  · by_cases h2 : z = a
    · exact absurd (h2.symm.trans h1) h
    · rw [if_pos h1, if_neg h2, if_pos h1]
  · by_cases h2 : z = a
    · rw [if_neg h1, if_pos h2, if_pos h2]
    · rw [if_neg h1, if_neg h2, if_neg h2, if_neg h1]

omit C in
theorem upd_elsewhere {α β : Type} [DecidableEq α] (f : α → β) {a b : α} (h : b ≠ a) (x : β) : upd f a x b = f b := if_neg h

omit C in
theorem apart_harmless {c d : Call} (h : CallsApart c d) : Harmless (M := Stores) LocalPolicy c.footprint d.footprint := by
  constructor
  · intro w x q hw hx hq
    cases x with
    | session a r =>
      replace hx : a = c.addr := hx
      subst hx
      cases q with
      | containsSession b =>
        replace hq : b = d.addr := hq
        subst hq
        show (upd w.sessions c.addr (some r) d.addr).isSome = (w.sessions d.addr).isSome
        rw [upd_elsewhere _ h.addr.symm]
      | loadSession b =>
        replace hq : b = d.addr := hq
        subst hq
        show World.loadSession { w with sessions := upd w.sessions c.addr (some r) } d.addr = World.loadSession w d.addr
        simp only [World.loadSession]
        rw [upd_elsewhere _ h.addr.symm]
      | _ => rfl
    | identity n k =>
      replace hx : usesIdentity c ∧ n = c.addr.1 := hx
      obtain ⟨hx, rfl⟩ := hx
      cases q with
      | isTrustedIdentity n' k' =>
        replace hq : usesIdentity d ∧ n' = d.addr.1 := hq
        obtain ⟨hq, rfl⟩ := hq
        show w.policy (upd w.identities c.addr.1 (some k)) d.addr.1 k' = w.policy w.identities d.addr.1 k'
        exact hw _ _ _ _ (upd_elsewhere _ (h.name hx hq).symm _)
      | _ => rfl
    | removePreKey i =>
      replace hx : preKeyNamed c = some i := hx
      cases q with
      | loadPreKey j =>
        replace hq : preKeyNamed d = some j := hq
        have hij : j ≠ i := by
          rintro rfl
          exact h.preKey _ hx hq
        show World.loadPreKey { w with preKeys := upd w.preKeys i none } j = World.loadPreKey w j
        simp only [World.loadPreKey]
        rw [upd_elsewhere _ hij]
      | _ => rfl
  · intro w x y _ hx hy
    cases x with
    | session a r =>
      replace hx : a = c.addr := hx
      subst hx
      cases y with
      | session b r' =>
        replace hy : b = d.addr := hy
        subst hy
        exact congrArg (fun f => ({ w with sessions := f } : World)) (upd_comm _ h.addr _ _)
      | _ => rfl
    | identity n k =>
      replace hx : usesIdentity c ∧ n = c.addr.1 := hx
      obtain ⟨hx, rfl⟩ := hx
      cases y with
      | identity n' k' =>
        replace hy : usesIdentity d ∧ n' = d.addr.1 := hy
        obtain ⟨hy, rfl⟩ := hy
        exact congrArg (fun f => ({ w with identities := f } : World)) (upd_comm _ (h.name hx hy) _ _)
      | _ => rfl
    | removePreKey i =>
      replace hx : preKeyNamed c = some i := hx
      cases y with
      | removePreKey j =>
        replace hy : preKeyNamed d = some j := hy
        have hij : i ≠ j := by
          rintro rfl
          exact h.preKey _ hx hy
        exact congrArg (fun f => ({ w with preKeys := f } : World)) (upd_comm _ hij _ _)
      | _ => rfl

omit C in
theorem apart_symm {c d : Call} (h : CallsApart c d) : CallsApart d c :=
  ⟨h.addr.symm, fun h1 h2 => (h.name h2 h1).symm, fun i h1 h2 => h.preKey i h2 h1⟩

theorem threads_independent {cs ds : List Call} (h : ∀ c ∈ cs, ∀ d ∈ ds, CallsApart c d) :
    Independent (M := Stores) LocalPolicy (Call.thread cs) (Call.thread ds) := by
  have key : ∀ {cs ds : List Call}, (∀ c ∈ cs, ∀ d ∈ ds, CallsApart c d) →
      Harmless (M := Stores) LocalPolicy (Call.footprints cs) (Call.footprints ds) := by
    intro cs ds h
    constructor
    · rintro w x q hw ⟨c, hc, hx⟩ ⟨d, hd, hq⟩
      exact (apart_harmless (h c hc d hd)).answers w x q hw hx hq
    · rintro w x q hw ⟨c, hc, hx⟩ ⟨d, hd, hq⟩
      exact (apart_harmless (h c hc d hd)).commute w x q hw hx hq
  exact ⟨_, _, thread_within cs, thread_within ds, key h, key fun c hc d hd => apart_symm (h d hd c hc)⟩

omit C in
theorem localPolicy_apply (w : World) (x : Write) (h : LocalPolicy w) : LocalPolicy (Stores.apply w x) := by
  cases x <;> exact h

/-! ## Group calls -/

/-- A program on the sender key store, running alone. -/
def GroupSteps.alone {α : Type} (g : GroupStore) (p : Prog SenderKeys α) : List (SenderKeyName × SenderKeyRecord) × Res α :=
  Prog.alone (M := SenderKeys) g p

omit C in
theorem gload {α β : Type} (g : GroupStore) (n : SenderKeyName) (f : SenderKeyRecord → Prog SenderKeys α) (h : α → Prog SenderKeys β) :
    GroupSteps.alone g ((GroupSteps.loadSenderKey n >>= f) >>= h) = GroupSteps.alone g (f (g n) >>= h) := rfl

omit C in
theorem look_alone {α β : Type} {g : GroupStore} {n : SenderKeyName} {f : SenderKeyRecord → Prog SenderKeys α}
    {h : α → Prog SenderKeys β} {o : List (SenderKeyName × SenderKeyRecord) × Res β} (hf : GroupSteps.alone g (f (g n) >>= h) = o) :
    Prog.alone (M := SenderKeys) g ((GroupSteps.loadSenderKey n >>= f) >>= h) = o := hf

/-- What a group call stored and gave, as a pair. -/
def GOutcome.pair {α : Type} (o : GOutcome α) (n : SenderKeyName) : List (SenderKeyName × SenderKeyRecord) × Res α :=
  (o.stored.toList.map fun r => (n, r), o.result)

omit C in
theorem encrypt_shape (g : GroupStore) (n : SenderKeyName) (x : Res (SenderKeyMessage × SenderKeyRecord)) :
    GroupSteps.alone g ((match x with
      | .ok (m, r) => do GroupSteps.storeSenderKey n r; return m.serialized
      | .error e => .done (GroupCipher.wrapNoSession (.error e))) >>= fun b => return GroupReply.bytes b) =
    (GroupCall.mapG GroupReply.bytes (match x with
      | .ok (m, r) => ⟨some r, .ok m.serialized⟩
      | .error e => ⟨none, GroupCipher.wrapNoSession (.error e)⟩)).pair n := by
  cases x with
  | ok x => rfl
  | error e => cases e <;> rfl

omit C in
theorem decrypt_shape (g : GroupStore) (n : SenderKeyName) (x : Res (Bytes × SenderKeyRecord)) :
    GroupSteps.alone g ((match x with
      | .ok (pt, r) => do GroupSteps.storeSenderKey n r; return pt
      | .error e => .done (GroupCipher.wrapInvalid (.error e))) >>= fun b => return GroupReply.bytes b) =
    (GroupCall.mapG GroupReply.bytes (match x with
      | .ok (pt, r) => ⟨some r, .ok pt⟩
      | .error e => ⟨none, GroupCipher.wrapInvalid (.error e)⟩)).pair n := by
  cases x with
  | ok x => rfl
  | error e => cases e <;> rfl

omit C in
theorem process_shape (g : GroupStore) (n : SenderKeyName) (x : Res SenderKeyRecord) :
    GroupSteps.alone g (((liftM x : Prog SenderKeys SenderKeyRecord) >>= fun r => GroupSteps.storeSenderKey n r) >>=
      fun _ => return GroupReply.done) =
    (GroupCall.mapG (fun _ => GroupReply.done) (GroupSessionBuilder.storeAdded x)).pair n := by
  cases x <;> rfl

omit C in
theorem create_shape (g : GroupStore) (n : SenderKeyName) (x : Res SenderKeyRecord) :
    GroupSteps.alone g (GroupSteps.storeCreated n x >>= fun m => return GroupReply.distribution m) =
    (GroupCall.mapG GroupReply.distribution (GroupSessionBuilder.storeCreated x)).pair n := by
  cases x with
  | ok r =>
    simp only [GroupSteps.storeCreated, GroupSessionBuilder.storeCreated]
    generalize GroupSessionBuilder.wrapAssert (GroupSessionBuilder.distributionOf r) = y
    cases y <;> rfl
  | error e => cases e <;> rfl

omit C in
theorem create_shape' (g : GroupStore) (n : SenderKeyName) (y : Res SenderKeyDistributionMessage) :
    GroupSteps.alone g ((.done y : Prog SenderKeys SenderKeyDistributionMessage) >>= fun m => return GroupReply.distribution m) =
    (GroupCall.mapG GroupReply.distribution ⟨none, y⟩).pair n := by
  cases y <;> rfl

theorem steps_create (g : GroupStore) (n : SenderKeyName) (rnd : GroupSessionBuilder.CreateRand) :
    GroupSteps.alone g (GroupSteps.create n rnd >>= fun m => return GroupReply.distribution m) =
      (GroupCall.mapG GroupReply.distribution (GroupSessionBuilder.create g n rnd)).pair n := by
  unfold GroupSteps.create GroupSessionBuilder.create
  rw [gload]
  split
  · exact create_shape g n _
  · exact create_shape' g n _

theorem groupProg_alone (g : GroupStore) (c : GroupCall) :
    Prog.alone (M := SenderKeys) g c.prog = (c.run g).pair c.name := by
  cases c with
  | encrypt n pt rand => exact look_alone (encrypt_shape g n (GroupCipher.encryptWithRecord (g n) pt rand))
  | decrypt n b => exact look_alone (decrypt_shape g n (GroupCipher.decryptWithRecord (g n) b))
  | process n m => exact look_alone (process_shape g n _)
  | create n rnd =>
    exact steps_create g n rnd

/-- What group calls may ask and change: the record of one name. -/
def GroupCall.footprint (n : SenderKeyName → Prop) : Footprint SenderKeys where
  asks q := n q
  changes x := n x.1

theorem groupProg_within {n : SenderKeyName → Prop} (c : GroupCall) (h : n c.name) : c.prog.Within (GroupCall.footprint n) := by
  cases c with
  | encrypt m pt rand =>
    refine within_bind (within_bind (.ask h fun _ => .done) fun r => ?_) fun _ => .done
    cases GroupCipher.encryptWithRecord r pt rand with
    | ok x => exact .change h .done
    | error e => exact .done
  | decrypt m b =>
    refine within_bind (within_bind (.ask h fun _ => .done) fun r => ?_) fun _ => .done
    cases GroupCipher.decryptWithRecord r b with
    | ok x => exact .change h .done
    | error e => exact .done
  | process m d =>
    refine within_bind (within_bind (.ask h fun _ => .done) fun r => ?_) fun _ => .done
    exact within_bind .done fun _ => .change h .done
  | create m rnd =>
    refine within_bind (within_bind (.ask h fun _ => .done) fun r => ?_) fun _ => .done
    split
    · cases r.setSenderKeyState rnd.keyId 0 rnd.senderKey (Curve.generateKeyPair rnd.signSeed) with
      | ok x => exact within_bind (.change h .done) fun _ => .done
      | error e => exact .done
    · exact .done

omit C in
theorem look_shape {α β : Type} (n : SenderKeyName) (f : SenderKeyRecord → Prog SenderKeys α) (h : α → Prog SenderKeys β)
    (hf : ∀ r, (f r).ChangesOnly) (hh : ∀ a, (h a).ChangesOnly) : ∃ k : SenderKeyRecord → Prog SenderKeys β,
    ((GroupSteps.loadSenderKey n >>= f) >>= h) = .ask (M := SenderKeys) n k ∧ ∀ r, (k r).ChangesOnly :=
  ⟨fun r => f r >>= h, rfl, fun r => changesOnly_bind (hf r) hh⟩

/-- A group call looks at the store once, at its start. -/
theorem groupProg_shape (c : GroupCall) : ∃ k : SenderKeyRecord → Prog SenderKeys GroupReply,
    c.prog = .ask (M := SenderKeys) c.name k ∧ ∀ r, (k r).ChangesOnly := by
  cases c with
  | encrypt m pt rand =>
    refine look_shape m _ _ (fun r => ?_) fun _ => .done
    generalize GroupCipher.encryptWithRecord r pt rand = x
    cases x with
    | ok x => exact .change .done
    | error e => exact .done
  | decrypt m b =>
    refine look_shape m _ _ (fun r => ?_) fun _ => .done
    generalize GroupCipher.decryptWithRecord r b = x
    cases x with
    | ok x => exact .change .done
    | error e => exact .done
  | process m d =>
    refine look_shape m _ _ (fun r => ?_) fun _ => .done
    generalize r.addSenderKeyState d.id d.iteration d.chainKey d.signatureKey = x
    cases x with
    | ok x => exact .change .done
    | error e => exact .done
  | create m rnd =>
    refine look_shape m _ _ (fun r => ?_) fun _ => .done
    split
    · generalize r.setSenderKeyState rnd.keyId 0 rnd.senderKey (Curve.generateKeyPair rnd.signSeed) = x
      cases x with
      | ok x => exact .change .done
      | error e => exact .done
    · exact .done

theorem groupProg_asksFirst (c : GroupCall) : c.prog.AsksFirst := by
  obtain ⟨k, h1, h2⟩ := groupProg_shape c
  rw [h1]
  exact .ask fun a => .rest (h2 a)

theorem groupProg_momentary (c : GroupCall) : c.prog.Momentary := by
  obtain ⟨k, h1, h2⟩ := groupProg_shape c
  rw [h1]
  exact .ask (fun _ => False) (fun a _ => h2 a) (fun _ h => h.elim) (fun _ h => h.elim)

theorem groupThread_within {n : SenderKeyName → Prop} (cs : List GroupCall) (h : ∀ c ∈ cs, n c.name) :
    (GroupCall.thread cs).Within (GroupCall.footprint n) := by
  induction cs with
  | nil => exact .done
  | cons c cs ih =>
    exact within_bind (within_outcome (groupProg_within c (h c (List.mem_cons_self ..)))) fun r =>
      within_bind (ih fun d hd => h d (List.mem_cons_of_mem _ hd)) fun _ => .done

theorem groupThread_alone (cs : List GroupCall) : ∀ g : GroupStore, ∃ ws : List (SenderKeyName × SenderKeyRecord),
    Prog.alone (M := SenderKeys) g (GroupCall.thread cs) = (ws, .ok (GroupCall.replies g cs)) ∧
    SenderKeys.applyAll g ws = GroupCall.after g cs := by
  induction cs with
  | nil => exact fun g => ⟨[], rfl, rfl⟩
  | cons c cs ih =>
    intro g
    obtain ⟨ws, h1, h2⟩ := ih (c.next g)
    have hn : SenderKeys.applyAll g ((c.run g).stored.toList.map fun r => (c.name, r)) = c.next g := by
      unfold GroupCall.next GOutcome.final
      cases (c.run g).stored <;> rfl
    refine ⟨((c.run g).stored.toList.map fun r => (c.name, r)) ++ ws, alone_cons (groupProg_alone g c) ?_,
      (changes_append (M := SenderKeys) g _ _).trans ?_⟩
    · exact (congrArg (fun s => Prog.alone (M := SenderKeys) s (GroupCall.thread cs)) hn).trans h1
    · exact (congrArg (fun s => SenderKeys.applyAll s ws) hn).trans h2

theorem groupThreads_independent {cs ds : List GroupCall} (h : ∀ c ∈ cs, ∀ d ∈ ds, c.name ≠ d.name) :
    Independent (M := SenderKeys) (fun _ => True) (GroupCall.thread cs) (GroupCall.thread ds) := by
  have key : ∀ {m n : SenderKeyName → Prop}, (∀ a b, m a → n b → a ≠ b) →
      Harmless (M := SenderKeys) (fun _ => True) (GroupCall.footprint m) (GroupCall.footprint n) := by
    intro m n h
    constructor
    · intro g x q _ hx hq
      exact if_neg (h _ _ hx hq).symm
    · intro g x y _ hx hy
      exact upd_comm _ (h _ _ hx hy) _ _
  refine ⟨_, _, groupThread_within cs (n := fun a => ∃ c ∈ cs, c.name = a) fun c hc => ⟨c, hc, rfl⟩,
    groupThread_within ds (n := fun a => ∃ d ∈ ds, d.name = a) fun c hc => ⟨c, hc, rfl⟩, key ?_, key ?_⟩
  · rintro a b ⟨c, hc, rfl⟩ ⟨d, hd, rfl⟩
    exact h c hc d hd
  · rintro a b ⟨d, hd, rfl⟩ ⟨c, hc, rfl⟩
    exact (h c hc d hd).symm

/-! ## Calls settled at one moment -/

omit C in
theorem containsSession_stays (a : Address) (w : World) (x : Write) (h : w.containsSession a = true) :
    (w.apply x).containsSession a = true := by
  cases x with
  | session b r =>
    simp only [World.apply, World.containsSession, upd]
    split
    · rfl
    · exact h
  | identity n k => exact h
  | removePreKey i => exact h

omit C in
theorem momentary_load {β : Type} {a : Address} {f : SessionRecord → Prog Stores β} (h : ∀ r, (f r).ChangesOnly) :
    (Steps.loadSession a >>= f).Momentary :=
  .ask (fun _ => False) (fun r _ => h r) (fun _ h => h.elim) (fun _ h => h.elim)

theorem encrypt_momentary (a : Address) (p : Bytes) : (Call.prog (.encrypt a p)).Momentary :=
  changesOnly_of_momentary_bind (momentary_load fun _ => co_lift fun _ => co_store fun _ => .done) fun _ => .done

theorem decryptMsg_momentary (a : Address) (m : WhisperMessage) (s : Bytes) (ss : Nat → Bytes) :
    (Call.prog (.decryptMsg a m s ss)).Momentary := by
  refine changesOnly_of_momentary_bind ?_ fun _ => .done
  refine .ask (M := Stores) (fun b : Bool => b = true) ?_ ?_ ?_
  · intro b hb
    have : b = false := Bool.eq_false_iff.2 hb
    subst this
    exact .done
  · rintro b rfl w x h
    exact containsSession_stays a w x h
  · rintro b rfl
    exact momentary_load fun _ => co_lift fun _ => co_store fun _ => .done

theorem init_momentary (a : Address) (n : Nat) (s1 s2 s3 : Bytes) : (Call.prog (.initKeyExchange a n s1 s2 s3)).Momentary := by
  refine changesOnly_of_momentary_bind ?_ fun _ => .done
  refine .ask (M := Stores) (fun _ => True) (fun _ h => absurd trivial h) ?_ ?_
  · rintro k _ w x h
    cases x <;> exact h
  · intro k _
    show Prog.Momentary (Prog.bind (Prog.done (Curve.calculateSignature s3 k.priv (Curve.serializePoint (Curve.generateKeyPair s1).pub))) _)
    cases Curve.calculateSignature s3 k.priv (Curve.serializePoint (Curve.generateKeyPair s1).pub) with
    | error e => exact .rest .done
    | ok sig => exact momentary_load fun _ => co_lift fun _ => co_store fun _ => .done

end
end Axolotl
