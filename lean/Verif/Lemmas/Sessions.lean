import Verif.Model.Sessions
import Verif.Spec.Sessions
import Verif.Lemmas.BatchAll

/-!
Sessions with calculators.
-/

namespace Verif
open Spec
variable {α E G C K P O σ : Type}

theorem Spec.Life.receive_ne {evs : List Nat → List (CEvent K)} : ∀ {l : Life K}, l ≠ [] → l.receive evs ≠ []
  | [(_, _)], _ => by simp [Life.receive]
  | _ :: _ :: _, _ => by simp [Life.receive]

theorem Spec.Life.ids_cons (x : List Nat × List (CEvent K)) {l : Life K} (hl : l ≠ []) : Life.ids (x :: l) = l.ids := by
  obtain ⟨y, l, rfl⟩ := List.exists_cons_of_ne_nil hl
  simp [Life.ids, List.getLast?_cons_cons]

theorem Spec.Life.receive_ids {evs : List Nat → List (CEvent K)} : ∀ l : Life K, (l.receive evs).ids = l.ids
  | [] => rfl
  | [(_, _)] => rfl
  | x :: y :: l => by
    have h := Life.receive_ids (evs := evs) (y :: l)
    have hne : Life.receive evs (y :: l) ≠ [] := Life.receive_ne (by simp)
    show Life.ids (x :: Life.receive evs (y :: l)) = _
    rw [Life.ids_cons x hne, h, ← Life.ids_cons x (by simp)]

theorem Spec.live_receive (ops : Ops G C K) (h w : Int) (evs : List Nat → List (CEvent K)) : ∀ (l : Life K), l ≠ [] → ∀ c c' : C,
    live ops h w c (l.receive evs) = .ok c' ↔ ∃ c1, live ops h w c l = .ok c1 ∧ feed ops c1 (evs l.ids) = .ok c'
  | [(ids, es)], _, c, c' => by
    simp only [Life.receive, live, bind_ok_iff, feed_append_ok, Life.ids, List.getLast?_singleton]
    constructor
    · rintro ⟨a, h1, b, ⟨b1, h2, h3⟩, h4⟩
      cases h4
      exact ⟨b1, ⟨a, h1, b1, h2, rfl⟩, h3⟩
    · rintro ⟨c1, ⟨a, h1, b, h2, h3⟩, h4⟩
      cases h3
      exact ⟨a, h1, c', ⟨c1, h2, h4⟩, rfl⟩
  | x :: y :: l, _, c, c' => by
    rw [Life.ids_cons x (by simp)]
    show live ops h w c (x :: Life.receive evs (y :: l)) = _ ↔ _
    rw [live, live]
    simp only [bind_ok_iff, Spec.live_receive ops h w evs (y :: l) (by simp)]
    constructor
    · rintro ⟨a, h1, b, h2, c1, h3, h4⟩
      exact ⟨c1, ⟨a, h1, b, h2, h3⟩, h4⟩
    · rintro ⟨c1, ⟨a, h1, b, h2, h3⟩, h4⟩
      exact ⟨a, h1, b, h2, c1, h3, h4⟩

theorem Spec.live_append (ops : Ops G C K) (h w : Int) (l l' : Life K) : ∀ c c' : C,
    live ops h w c (l ++ l') = .ok c' ↔ ∃ c1, live ops h w c l = .ok c1 ∧ live ops h w c1 l' = .ok c' := by
  induction l with
  | nil =>
    intro c c'
    simp only [List.nil_append, live]
    constructor
    · intro h1; exact ⟨c, rfl, h1⟩
    · rintro ⟨c1, h1, h2⟩; cases h1; exact h2
  | cons x l ih =>
    intro c c'
    rw [List.cons_append, live, live]
    simp only [bind_ok_iff, ih]
    constructor
    · rintro ⟨a, h1, b, h2, c1, h3, h4⟩
      exact ⟨c1, ⟨a, h1, b, h2, h3⟩, h4⟩
    · rintro ⟨c1, ⟨a, h1, b, h2, h3⟩, h4⟩
      exact ⟨a, h1, b, h2, c1, h3, h4⟩

theorem Spec.Life.ids_append (l : Life K) (x : List Nat × List (CEvent K)) : Life.ids (l ++ [x]) = x.1 := by
  simp [Life.ids]

/-- All lives can be lived. -/
def Spec.Alive (ops : Ops G C K) (h w : Int) (ls : List (C × Life K)) : Prop := ∀ x ∈ ls, x.2 ≠ [] ∧ ∃ c', live ops h w x.1 x.2 = .ok c'

/-- What can be lived at the end could be lived before. -/
theorem Spec.Alive.before {ops : Ops G C K} {h w : Int} {step : σ → O → σ} {events : σ → O → List Nat → List (CEvent K)} :
    ∀ (as : List (SAct P C O)) (u : σ) (ls : List (C × Life K)), (∀ x ∈ ls, x.2 ≠ []) → Alive ops h w (lives step events u ls as) → Alive ops h w ls
  | [], _, _, _, H => H
  | .generator _ :: as, u, ls, hne, H => Alive.before as u ls hne H
  | .consumer c ids :: as, u, ls, hne, H => fun x hx =>
    Alive.before as u (ls ++ [(c, [(ids, [])])]) (by
      intro y hy
      rcases List.mem_append.mp hy with hy | hy
      · exact hne y hy
      · rw [List.mem_singleton.mp hy]; simp) H x (by simp [hx])
  | .again k ids :: as, u, ls, hne, H => by
    intro x hx
    have h1 := Alive.before as u (ls.modify k fun x => (x.1, x.2 ++ [(ids, [])])) (by
      intro y hy
      obtain ⟨i, hi⟩ := List.mem_iff_getElem?.mp hy
      rw [List.getElem?_modify] at hi
      obtain ⟨z, hz, rfl⟩ := Option.map_eq_some_iff.mp hi
      split
      · simp
      · exact hne z (List.mem_of_getElem? hz)) H
    obtain ⟨i, hi⟩ := List.mem_iff_getElem?.mp hx
    have h2 : (ls.modify k fun x => (x.1, x.2 ++ [(ids, [])]))[i]? = some (if k = i then (x.1, x.2 ++ [(ids, [])]) else x) := by
      rw [List.getElem?_modify, hi]; rfl
    obtain ⟨-, c', h3⟩ := h1 _ (List.mem_of_getElem? h2)
    refine ⟨hne x hx, ?_⟩
    split at h3
    · obtain ⟨c1, h4, -⟩ := (live_append ops h w x.2 _ x.1 c').mp h3
      exact ⟨c1, h4⟩
    · exact ⟨c', h3⟩
  | .call op :: as, u, ls, hne, H => by
    intro x hx
    have h1 := Alive.before as (step u op) (ls.map fun x => (x.1, x.2.receive (events u op))) (by
      intro y hy
      obtain ⟨z, hz, rfl⟩ := List.mem_map.mp hy
      exact Life.receive_ne (hne z hz)) H
    obtain ⟨-, c', h3⟩ := h1 _ (List.mem_map_of_mem hx)
    obtain ⟨c1, h4, -⟩ := (live_receive ops h w (events u op) x.2 (hne x hx) x.1 c').mp h3
    exact ⟨hne x hx, c1, h4⟩

/-- The consumers are as their lives say. -/
def Spec.Lived (ops : Ops G C K) (h w : Int) (ls : List (C × Life K)) (cons : List (C × List Nat)) : Prop :=
  List.Forall₂ (fun x c => x.2 ≠ [] ∧ c.2 = x.2.ids ∧ live ops h w x.1 x.2 = .ok c.1) ls cons

theorem Spec.Lived.ne {ops : Ops G C K} {h w : Int} {ls : List (C × Life K)} {cons : List (C × List Nat)} (H : Lived ops h w ls cons) : ∀ x ∈ ls, x.2 ≠ [] := by
  intro x hx
  obtain ⟨i, hi⟩ := List.mem_iff_getElem?.mp hx
  have h1 := (forall₂_iff_getElem? _ _ _).mp H
  have : i < cons.length := by rw [h1.1]; exact (List.getElem?_eq_some_iff.mp hi).1
  exact (h1.2 i x _ hi (List.getElem?_eq_getElem this)).1

theorem Spec.Lived.needed {ops : Ops G C K} {h w : Int} {ls : List (C × Life K)} {cons : List (C × List Nat)} (H : Lived ops h w ls cons) (id : Nat) :
    (∃ c ∈ cons, id ∈ c.2) ↔ ∃ x ∈ ls, id ∈ x.2.ids := by
  induction H with
  | nil => simp
  | cons h1 _ ih => simp only [List.exists_mem_cons_iff, ih, h1.2.1]

/-- A call: every consumer receives its events. -/
theorem Spec.Lived.fed {ops : Ops G C K} {h w : Int} {evs : List Nat → List (CEvent K)} {ls : List (C × Life K)} {cons : List (C × List Nat)}
    (H : Lived ops h w ls cons) (ha : Alive ops h w (ls.map fun x => (x.1, x.2.receive evs))) : ∃ cons', AllFed ops evs cons cons' := by
  induction H with
  | nil => exact ⟨[], .nil⟩
  | @cons x c ls cons h1 _ ih =>
    obtain ⟨cons', h2⟩ := ih fun y hy => ha y (by simp only [List.map_cons, List.mem_cons]; exact .inr hy)
    obtain ⟨-, c', h3⟩ := ha (x.1, x.2.receive evs) (by simp)
    obtain ⟨c1, h4, h5⟩ := (live_receive ops h w evs x.2 h1.1 x.1 c').mp h3
    rw [h1.2.2] at h4
    cases h4
    exact ⟨(c', c.2) :: cons', .cons ⟨rfl, by rw [h1.2.1]; exact h5⟩ h2⟩

theorem Spec.Lived.receive {ops : Ops G C K} {h w : Int} {evs : List Nat → List (CEvent K)} {ls : List (C × Life K)} {cons cons' : List (C × List Nat)}
    (H : Lived ops h w ls cons) (hf : AllFed ops evs cons cons') : Lived ops h w (ls.map fun x => (x.1, x.2.receive evs)) cons' := by
  induction H generalizing cons' with
  | nil => cases hf; exact .nil
  | @cons x c ls cons h1 _ ih =>
    obtain ⟨c', cs', ⟨h2, h3⟩, h4, rfl⟩ := List.forall₂_cons_left_iff.mp hf
    refine .cons ⟨Life.receive_ne h1.1, by rw [h2, h1.2.1]; exact (Life.receive_ids _).symm, ?_⟩ (ih h4)
    exact (live_receive ops h w evs x.2 h1.1 x.1 c'.1).mpr ⟨c.1, h1.2.2, by rw [← h1.2.1]; exact h3⟩

/-- Adding a new consumer. -/
theorem Spec.Lived.add {ops : Ops G C K} {ls : List (C × Life K)} {st : Calc G C} (H : Lived ops st.numQuery st.numSeries ls st.cons) (c : C) (ids : List Nat)
    (ha : Alive ops st.numQuery st.numSeries (ls ++ [(c, [(ids, [])])])) :
    ∃ cons', st.addConsumer ops ids c = .ok { st with cons := cons' } ∧ Lived ops st.numQuery st.numSeries (ls ++ [(c, [(ids, [])])]) cons' := by
  obtain ⟨-, c', h1⟩ := ha (c, [(ids, [])]) (by simp)
  have h2 : ops.initialise c ids.length st.numQuery st.numSeries = .ok c' := by
    simp only [live, bind_ok_iff] at h1
    obtain ⟨a, h2, b, h3, h4⟩ := h1
    cases h3; cases h4; exact h2
  refine ⟨st.cons ++ [(c', ids)], ?_, List.rel_append H (.cons ⟨by simp, rfl, h1⟩ .nil)⟩
  unfold Calc.addConsumer
  simp only [h2, bind, Except.bind, pure, Except.pure]

/-- Adding a consumer again. -/
theorem Spec.Lived.again {ops : Ops G C K} {ls : List (C × Life K)} {st : Calc G C} (H : Lived ops st.numQuery st.numSeries ls st.cons) (k : Nat) (hk : k < ls.length)
    (ids : List Nat) (ha : Alive ops st.numQuery st.numSeries (ls.modify k fun x => (x.1, x.2 ++ [(ids, [])]))) :
    ∃ cons', st.againConsumer ops k ids = .ok { st with cons := cons' } ∧
      Lived ops st.numQuery st.numSeries (ls.modify k fun x => (x.1, x.2 ++ [(ids, [])])) cons' := by
  have H' := (forall₂_iff_getElem? _ _ _).mp H
  have hk' : k < st.cons.length := by rw [H'.1]; exact hk
  obtain ⟨h1, h2, h3⟩ := H'.2 k _ _ (List.getElem?_eq_getElem hk) (List.getElem?_eq_getElem hk')
  have h4 : (ls.modify k fun x => (x.1, x.2 ++ [(ids, [])]))[k]? = some (ls[k].1, ls[k].2 ++ [(ids, [])]) := by
    rw [List.getElem?_modify, List.getElem?_eq_getElem hk]; simp
  obtain ⟨-, c', h5⟩ := ha _ (List.mem_of_getElem? h4)
  obtain ⟨c1, h6, h7⟩ := (live_append ops _ _ ls[k].2 _ _ _).mp h5
  rw [h3] at h6
  cases h6
  have h8 : ops.initialise st.cons[k].1 ids.length st.numQuery st.numSeries = .ok c' := by
    simp only [live, bind_ok_iff] at h7
    obtain ⟨a, h8, b, h9, h10⟩ := h7
    cases h9; cases h10; exact h8
  refine ⟨st.cons.set k (c', ids), ?_, ?_⟩
  · unfold Calc.againConsumer
    rw [List.getElem?_eq_getElem hk']
    simp only [h8, bind, Except.bind, pure, Except.pure]
  · refine (forall₂_iff_getElem? _ _ _).mpr ⟨by simp [H'.1], fun i x c hx hc => ?_⟩
    rw [List.getElem?_modify] at hx
    rw [List.getElem?_set] at hc
    obtain ⟨y, hy, rfl⟩ := Option.map_eq_some_iff.mp hx
    by_cases hki : k = i
    · subst hki
      rw [if_pos rfl, if_pos hk'] at hc
      cases hc
      rw [List.getElem?_eq_getElem hk] at hy
      cases hy
      simp only [if_true]
      exact ⟨by simp, (Life.ids_append ls[k].2 (ids, [])).symm, h5⟩
    · rw [if_neg hki] at hc
      rw [if_neg hki]
      exact H'.2 i y c hy hc

/-- The user's acts `bs` stand for the acts `as`: calls stand for calculations (`isCall`), generators may be added in the states `fresh`, a consumer that is
added again has been added before. `needed` is the set of the generators of all consumers, which have been added before the call. `n`: number of generators,
`idss`: the generators of the consumers. -/
def AreActs {O' P C : Type} (step : σ → O → σ) (isCall : σ → O → O' → Prop) (fresh : σ → Prop) :
    Nat → List (List Nat) → σ → List (SAct (P × Nat) C O) → List (Act P C O') → Prop
  | _, _, _, [], [] => True
  | n, idss, u, .generator g :: as, .generator g' dim :: bs => fresh u ∧ g' = g.1 ∧ dim = g.2 ∧ AreActs step isCall fresh (n + 1) idss u as bs
  | n, idss, u, .consumer c ids :: as, .consumer c' ids' :: bs => c' = c ∧ ids' = ids ∧ AreActs step isCall fresh n (idss ++ [ids]) u as bs
  | n, idss, u, .again k ids :: as, .again k' ids' :: bs => k' = k ∧ ids' = ids ∧ k < idss.length ∧ AreActs step isCall fresh n (idss.set k ids) u as bs
  | n, idss, u, .call op :: as, .call needed o :: bs => isCall u op o ∧ needed.Nodup ∧ (∀ id, id ∈ needed ↔ ∃ ids ∈ idss, id ∈ ids) ∧
      (∀ ids ∈ idss, ∀ id ∈ ids, id < n) ∧ AreActs step isCall fresh n idss (step u op) as bs
  | _, _, _, _, _ => False

theorem Spec.ids_receive (evs : List Nat → List (CEvent K)) (ls : List (C × Life K)) :
    (ls.map fun x => (x.1, x.2.receive evs)).map (fun x => x.2.ids) = ls.map fun x => x.2.ids := by
  rw [List.map_map]
  exact List.map_congr_left fun x _ => Life.receive_ids x.2

theorem Spec.ids_again (ls : List (C × Life K)) (k : Nat) (ids : List Nat) :
    (ls.modify k fun x => (x.1, x.2 ++ [(ids, [])])).map (fun x => x.2.ids) = (ls.map fun x => x.2.ids).set k ids := by
  apply List.ext_getElem?
  intro i
  rw [List.getElem?_map, List.getElem?_modify, List.getElem?_set, List.getElem?_map]
  by_cases hki : k = i
  · subst hki
    by_cases hk : k < ls.length
    · simp [hk, Life.ids_append ls[k].2 (ids, [])]
    · simp [hk]
  · simp [hki]

theorem Spec.Lived.idss {ops : Ops G C K} {h w : Int} {ls : List (C × Life K)} {cons : List (C × List Nat)} (H : Lived ops h w ls cons) :
    cons.map Prod.snd = ls.map fun x => x.2.ids := by
  induction H with
  | nil => rfl
  | cons h1 _ ih => simp [h1.2.1, ih]

theorem Spec.lives_ne (step : σ → O → σ) (events : σ → O → List Nat → List (CEvent K)) : ∀ (as : List (SAct P C O)) (u : σ) (ls : List (C × Life K)),
    (∀ x ∈ ls, x.2 ≠ []) → ∀ x ∈ lives step events u ls as, x.2 ≠ []
  | [], _, _, H => H
  | .generator _ :: as, u, ls, H => lives_ne step events as u ls H
  | .consumer c ids :: as, u, ls, H => lives_ne step events as u _ (by
      intro y hy
      rcases List.mem_append.mp hy with hy | hy
      · exact H y hy
      · rw [List.mem_singleton.mp hy]; simp)
  | .again k ids :: as, u, ls, H => lives_ne step events as u _ (by
      intro y hy
      obtain ⟨i, hi⟩ := List.mem_iff_getElem?.mp hy
      rw [List.getElem?_modify] at hi
      obtain ⟨z, hz, rfl⟩ := Option.map_eq_some_iff.mp hi
      split
      · simp
      · exact H z (List.mem_of_getElem? hz))
  | .call op :: as, u, ls, H => lives_ne step events as _ _ (by
      intro y hy
      obtain ⟨z, hz, rfl⟩ := List.mem_map.mp hy
      exact Life.receive_ne (H z hz))

section
variable (step : σ → O → σ) (events : σ → O → List Nat → List (CEvent K))

/-- A life told by its times. -/
def Spec.Span.life (l : List (Span σ O)) : Life K := l.map fun x => (x.ids, received step events x.ids x.start x.ops)

theorem Spec.received_append (ids : List Nat) (ops : List O) (op : O) : ∀ u : σ,
    received step events ids u (ops ++ [op]) = received step events ids u ops ++ events (ops.foldl step u) op ids := by
  induction ops with
  | nil => intro u; simp [received]
  | cons o ops ih => intro u; simp [received, ih, List.append_assoc]

theorem Spec.Span.life_grow (u : σ) (op : O) : ∀ l : List (Span σ O), (∀ x, l.getLast? = some x → x.ops.foldl step x.start = u) →
    Span.life step events (Span.grow op l) = Life.receive (events u op) (Span.life step events l)
  | [], _ => rfl
  | [x], h => by
    have := h x rfl
    simp [Span.life, Span.grow, Life.receive, received_append, this]
  | x :: y :: l, h => by
    have := Span.life_grow u op (y :: l) (fun z hz => h z (by rw [List.getLast?_cons_cons]; exact hz))
    simp only [Span.life, Span.grow, List.map_cons, Life.receive] at this ⊢
    rw [this]

theorem Spec.Span.grow_last (op : O) : ∀ (l : List (Span σ O)) (x : Span σ O), (Span.grow op l).getLast? = some x →
    ∃ y, l.getLast? = some y ∧ x = ⟨y.ids, y.start, y.ops ++ [op]⟩
  | [], _, h => by simp [Span.grow] at h
  | [y], x, h => ⟨y, rfl, by simpa [Span.grow, eq_comm] using h⟩
  | z :: y :: l, x, h => by
    obtain ⟨w, l', e⟩ : ∃ w l', Span.grow op (y :: l) = w :: l' := by
      cases l with
      | nil => exact ⟨_, _, rfl⟩
      | cons _ _ => exact ⟨_, _, rfl⟩
    have h' : (Span.grow op (y :: l)).getLast? = some x := by
      rw [Span.grow, e, List.getLast?_cons_cons, ← e] at h
      exact h
    obtain ⟨v, h1, h2⟩ := Span.grow_last op (y :: l) x h'
    exact ⟨v, by rw [List.getLast?_cons_cons]; exact h1, h2⟩

theorem Spec.Span.grow_mem (op : O) : ∀ (l : List (Span σ O)), ∀ x ∈ Span.grow op l, ∃ y ∈ l, x.ids = y.ids ∧ (x = y ∨ x.ops = y.ops ++ [op])
  | [], _, h => by simp [Span.grow] at h
  | [y], x, h => ⟨y, by simp, by rw [List.mem_singleton.mp h], .inr (by rw [List.mem_singleton.mp h])⟩
  | z :: y :: l, x, h => by
    rcases List.mem_cons.mp h with rfl | h
    · exact ⟨x, by simp, rfl, .inl rfl⟩
    · obtain ⟨v, h1, h2⟩ := Span.grow_mem op (y :: l) x h
      exact ⟨v, by simp only [List.mem_cons] at h1 ⊢; exact .inr h1, h2⟩

/-- The lives, told by the times. -/
theorem Spec.lives_spans : ∀ (as : List (SAct P C O)) (u : σ) (ls : List (C × List (Span σ O))),
    (∀ x ∈ ls, ∀ y, x.2.getLast? = some y → y.ops.foldl step y.start = u) →
    lives step events u (ls.map fun x => (x.1, Span.life step events x.2)) as = (spans step u ls as).map fun x => (x.1, Span.life step events x.2)
  | [], _, _, _ => rfl
  | .generator _ :: as, u, ls, H => Spec.lives_spans as u ls H
  | .consumer c ids :: as, u, ls, H => by
    rw [lives, spans, ← Spec.lives_spans as u _ ?_]
    · simp [Span.life, received]
    · intro x hx y hy
      rcases List.mem_append.mp hx with hx | hx
      · exact H x hx y hy
      · rw [List.mem_singleton.mp hx] at hy
        simp only [List.getLast?_singleton, Option.some.injEq] at hy
        rw [← hy]; rfl
  | .again k ids :: as, u, ls, H => by
    rw [lives, spans, ← Spec.lives_spans as u _ ?_]
    · congr 1
      apply List.ext_getElem?
      intro i
      simp only [List.getElem?_modify, List.getElem?_map, Option.map_map]
      cases ls[i]? with
      | none => rfl
      | some x =>
        by_cases hki : k = i
        · simp [hki, Span.life, received]
        · simp [hki]
    · intro x hx y hy
      obtain ⟨i, hi⟩ := List.mem_iff_getElem?.mp hx
      rw [List.getElem?_modify] at hi
      obtain ⟨z, hz, rfl⟩ := Option.map_eq_some_iff.mp hi
      by_cases hki : k = i
      · simp only [hki, if_true, List.getLast?_append, List.getLast?_singleton, Option.some_or, Option.some.injEq] at hy
        rw [← hy]; rfl
      · simp only [hki, if_false] at hy
        exact H z (List.mem_of_getElem? hz) y hy
  | .call op :: as, u, ls, H => by
    rw [lives, spans, ← Spec.lives_spans as (step u op) _ ?_]
    · congr 1
      rw [List.map_map, List.map_map]
      apply List.map_congr_left
      intro x hx
      simp only [Function.comp]
      rw [Span.life_grow step events u op x.2 (H x hx)]
    · intro x hx y hy
      obtain ⟨z, hz, rfl⟩ := List.mem_map.mp hx
      obtain ⟨v, h1, rfl⟩ := Span.grow_last op z.2 y hy
      simp [H z hz v h1]

/-- The calls of a time are calls of the session. -/
theorem Spec.spans_mem (p : List Nat → Prop) (Q : O → Prop) : ∀ (as : List (SAct P C O)) (u : σ) (ls : List (C × List (Span σ O))),
    (∀ a ∈ as, a.Adds p) → (∀ op ∈ SAct.calls as, Q op) → (∀ x ∈ ls, x.2 ≠ [] ∧ ∀ y ∈ x.2, p y.ids ∧ ∀ op ∈ y.ops, Q op) →
    ∀ x ∈ spans step u ls as, x.2 ≠ [] ∧ ∀ y ∈ x.2, p y.ids ∧ ∀ op ∈ y.ops, Q op
  | [], _, _, _, _, H => H
  | .generator _ :: as, u, ls, hp, hQ, H => Spec.spans_mem p Q as u ls (fun a h => hp a (by simp [h])) hQ H
  | .consumer c ids :: as, u, ls, hp, hQ, H => Spec.spans_mem p Q as u _ (fun a h => hp a (by simp [h])) hQ (by
      intro x hx
      rcases List.mem_append.mp hx with hx | hx
      · exact H x hx
      · rw [List.mem_singleton.mp hx]
        have : p ids := hp (.consumer c ids) (by simp)
        simpa using this)
  | .again k ids :: as, u, ls, hp, hQ, H => Spec.spans_mem p Q as u _ (fun a h => hp a (by simp [h])) hQ (by
      intro x hx
      obtain ⟨i, hi⟩ := List.mem_iff_getElem?.mp hx
      rw [List.getElem?_modify] at hi
      obtain ⟨z, hz, rfl⟩ := Option.map_eq_some_iff.mp hi
      have hz := H z (List.mem_of_getElem? hz)
      split
      · have : p ids := hp (.again k ids) (by simp)
        refine ⟨by simp, fun y hy => ?_⟩
        rcases List.mem_append.mp hy with hy | hy
        · exact hz.2 y hy
        · rw [List.mem_singleton.mp hy]; simpa using this
      · exact hz)
  | .call op :: as, u, ls, hp, hQ, H => Spec.spans_mem p Q as _ _ (fun a h => hp a (by simp [h])) (fun o h => hQ o (by simp [SAct.calls, h])) (by
      intro x hx
      obtain ⟨z, hz, rfl⟩ := List.mem_map.mp hx
      have hz := H z hz
      refine ⟨?_, fun y hy => ?_⟩
      · rcases h : z.2 with _ | ⟨a, _ | ⟨b, l⟩⟩
        · exact absurd h hz.1
        · simp [Span.grow]
        · simp [Span.grow]
      · obtain ⟨v, h1, h2, h3⟩ := Span.grow_mem op z.2 y hy
        obtain ⟨h4, h5⟩ := hz.2 v h1
        refine ⟨by rw [h2]; exact h4, fun o ho => ?_⟩
        rcases h3 with rfl | h3
        · exact h5 o ho
        · rw [h3] at ho
          rcases List.mem_append.mp ho with ho | ho
          · exact h5 o ho
          · rw [List.mem_singleton.mp ho]; exact hQ op (by simp [SAct.calls]))

end

/-- Every call stands for a calculation. -/
theorem AreActs.call {O' P C : Type} {step : σ → O → σ} {isCall : σ → O → O' → Prop} {fresh : σ → Prop} : ∀ (as : List (SAct (P × Nat) C O))
    (bs : List (Act P C O')) (n : Nat) (idss : List (List Nat)) (u : σ), AreActs step isCall fresh n idss u as bs → ∀ op ∈ SAct.calls as, ∃ u o, isCall u op o
  | [], [], _, _, _, _, _, h => by cases h
  | .generator _ :: as, .generator _ _ :: bs, _, _, _, H, op, h => AreActs.call as bs _ _ _ H.2.2.2 op h
  | .consumer _ _ :: as, .consumer _ _ :: bs, _, _, _, H, op, h => AreActs.call as bs _ _ _ H.2.2 op h
  | .again _ _ :: as, .again _ _ :: bs, _, _, _, H, op, h => AreActs.call as bs _ _ _ H.2.2.2 op h
  | .call x :: as, .call _ o :: bs, _, _, u, H, op, h => by
    rcases List.mem_cons.mp h with rfl | h
    · exact ⟨u, o, H.1⟩
    · exact AreActs.call as bs _ _ _ H.2.2.2.2 op h

/-- For a consumer whose `initialise` forgets everything only the last time counts. -/
theorem Spec.live_last (ops : Ops G C K) (h w : Int) (hinit : ∀ c c' n, ops.initialise c n h w = ops.initialise c' n h w) (l : Life K) (hne : l ≠ [])
    (hok : ∀ x ∈ l, ∀ c, ∃ c', live ops h w c [x] = .ok c') (c c0 : C) :
    ∃ x, l.getLast? = some x ∧ live ops h w c l = live ops h w c0 [x] := by
  refine ⟨l.getLast hne, List.getLast?_eq_some_getLast hne, ?_⟩
  have h1 : ∀ l' : Life K, (∀ x ∈ l', ∀ c, ∃ c', live ops h w c [x] = .ok c') → ∀ c, ∃ c', live ops h w c l' = .ok c' := by
    intro l'
    induction l' with
    | nil => intro _ c; exact ⟨c, rfl⟩
    | cons x l' ih =>
      intro H c
      obtain ⟨c1, h1⟩ := H x (by simp) c
      obtain ⟨c2, h2⟩ := ih (fun y hy => H y (by simp [hy])) c1
      exact ⟨c2, (live_append ops h w [x] l' c c2).mpr ⟨c1, h1, h2⟩⟩
  obtain ⟨c1, h2⟩ := h1 l.dropLast (fun x hx => hok x (List.mem_of_mem_dropLast hx)) c
  obtain ⟨c2, h3⟩ := hok _ (List.getLast_mem hne) c1
  have h4 : live ops h w c l = .ok c2 := by
    conv_lhs => rw [← List.dropLast_append_getLast hne]
    exact (live_append ops h w _ _ c c2).mpr ⟨c1, h2, h3⟩
  rw [h4, ← h3, live, live, hinit c1 c0]

end Verif
