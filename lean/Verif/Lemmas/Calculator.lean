import Verif.Spec.Events
import Verif.Lemmas.Ranges
import Verif.Lemmas.Slices
import Verif.Lemmas.Float

namespace Verif
open Spec
variable {G C K : Type}

theorem bind_ok_iff {α β : Type} {x : Except PyErr α} {f : α → Except PyErr β} {b : β} :
    (x >>= f) = .ok b ↔ ∃ a, x = .ok a ∧ f a = .ok b := by
  cases x with
  | error e => simp [bind, Except.bind]
  | ok a => simp [bind, Except.bind]

theorem pure_ok_iff {α : Type} {a b : α} : (pure a : Except PyErr α) = .ok b ↔ b = a := by
  simp [pure, Except.pure, eq_comm]

theorem mapM_ok_iff {α β : Type} (f : α → Except PyErr β) (l : List α) (l' : List β) :
    l.mapM f = .ok l' ↔ List.Forall₂ (fun a b => f a = .ok b) l l' := by
  induction l generalizing l' with
  | nil =>
    rw [List.mapM_nil, pure_ok_iff]
    cases l' <;> simp
  | cons a l ih =>
    rw [List.mapM_cons, bind_ok_iff]
    constructor
    · rintro ⟨b, hb, h⟩
      obtain ⟨bs, hbs, h⟩ := bind_ok_iff.mp h
      rw [pure_ok_iff] at h
      subst h
      exact .cons hb ((ih bs).mp hbs)
    · intro h
      cases h with
      | cons hb h => exact ⟨_, hb, bind_ok_iff.mpr ⟨_, (ih _).mpr h, rfl⟩⟩

theorem mapM_ok_map {α β : Type} (f : α → Except PyErr β) (g : α → β) (l : List α) (h : ∀ a ∈ l, f a = .ok (g a)) :
    l.mapM f = .ok (l.map g) := by
  rw [mapM_ok_iff]
  induction l with
  | nil => exact .nil
  | cons a l ih => exact .cons (h a List.mem_cons_self) (ih fun a ha => h a (List.mem_cons_of_mem _ ha))

theorem pyGet_nat {α : Type} (l : List α) (i : Nat) :
    pyGet l (i : Int) = match l[i]? with | some x => .ok x | none => .error .indexError := by
  unfold pyGet
  have : ¬ (i : Int) < 0 := by omega
  simp only [this, if_false, Int.toNat_natCast]
  rfl

theorem pyGet_nat_ok {α : Type} (l : List α) (i : Nat) (x : α) : pyGet l (i : Int) = .ok x ↔ l[i]? = some x := by
  rw [pyGet_nat]
  cases h : l[i]? <;> simp

theorem pySet_nat {α : Type} (l : List α) (i : Nat) (x : α) :
    pySet l (i : Int) x = if i < l.length then .ok (l.set i x) else .error .indexError := by
  unfold pySet
  have : ¬ (i : Int) < 0 := by omega
  simp only [this, if_false, Int.toNat_natCast]

theorem pySet_nat_ok {α : Type} (l l' : List α) (i : Nat) (x : α) :
    pySet l (i : Int) x = .ok l' ↔ i < l.length ∧ l' = l.set i x := by
  rw [pySet_nat]
  split <;> simp_all [eq_comm]

theorem feed_append (ops : Ops G C K) (c : C) (a b : List (CEvent K)) :
    feed ops c (a ++ b) = feed ops c a >>= fun c => feed ops c b := by
  induction a generalizing c with
  | nil => rfl
  | cons e es ih =>
    simp only [List.cons_append, feed]
    cases e.apply ops c with
    | error x => rfl
    | ok c => simp only [bind, Except.bind]; exact ih c

theorem feed_append_ok (ops : Ops G C K) (c c' : C) (a b : List (CEvent K)) :
    feed ops c (a ++ b) = .ok c' ↔ ∃ c1, feed ops c a = .ok c1 ∧ feed ops c1 b = .ok c' := by
  rw [feed_append, bind_ok_iff]

theorem feed_singleton (ops : Ops G C K) (c : C) (e : CEvent K) : feed ops c [e] = e.apply ops c := by
  simp only [feed]
  cases e.apply ops c <;> rfl

/-- Characterisation of one round of generator calls. -/
theorem genStep_iff (ask : G → Except PyErr (G × List (Fl K))) (n : Nat) (ids : List Nat) (hnd : ids.Nodup)
    (gens : List (G × Nat)) (rows : List (List (Fl K))) (gens' : List (G × Nat)) (rows' : List (List (Fl K))) :
    Calc.genStep ask n ids gens rows = .ok (gens', rows') ↔
      (gens'.length = gens.length ∧ rows'.length = rows.length ∧
        (∀ id ∈ ids, id < rows.length ∧ ∃ g d g' v row, gens[id]? = some (g, d) ∧ gens'[id]? = some (g', d) ∧ ask g = .ok (g', v) ∧
          npRow n v = .ok row ∧ rows'[id]? = some row) ∧
        (∀ id, id ∉ ids → gens'[id]? = gens[id]? ∧ rows'[id]? = rows[id]?)) := by
  induction ids generalizing gens rows with
  | nil =>
    simp only [Calc.genStep, Except.ok.injEq, Prod.mk.injEq, List.not_mem_nil, false_implies, implies_true, true_and,
      not_false_eq_true, true_implies]
    constructor
    · rintro ⟨rfl, rfl⟩; exact ⟨rfl, rfl, fun _ => ⟨rfl, rfl⟩⟩
    · rintro ⟨_, _, h⟩
      exact ⟨(List.ext_getElem? fun i => (h i).1).symm, (List.ext_getElem? fun i => (h i).2).symm⟩
  | cons id ids ih =>
    obtain ⟨hni, hnd⟩ := List.nodup_cons.mp hnd
    simp only [Calc.genStep]
    rw [bind_ok_iff]
    constructor
    · rintro ⟨⟨g, d⟩, hg, h⟩
      rw [pyGet_nat_ok] at hg
      obtain ⟨⟨g', v⟩, hask, h⟩ := bind_ok_iff.mp h
      obtain ⟨row, hrow, h⟩ := bind_ok_iff.mp h
      obtain ⟨rows1, hset, h⟩ := bind_ok_iff.mp h
      rw [pySet_nat_ok] at hset
      obtain ⟨hlt, rfl⟩ := hset
      obtain ⟨h1, h2, h3, h4⟩ := (ih hnd _ _).mp h
      have hlg : id < gens.length := (List.getElem?_eq_some_iff.mp hg).1
      refine ⟨by simpa using h1, by simpa using h2, ?_, ?_⟩
      · intro i hi
        rcases List.mem_cons.mp hi with rfl | hi
        · refine ⟨hlt, g, d, g', v, row, hg, ?_, hask, hrow, ?_⟩
          · rw [(h4 i hni).1]; simp [hlg]
          · rw [(h4 i hni).2]; simp [hlt]
        · obtain ⟨hl, g1, d1, g1', v1, row1, a, b, c, e, f⟩ := h3 i hi
          have hne : id ≠ i := fun e => hni (e ▸ hi)
          rw [List.getElem?_set_ne hne] at a
          exact ⟨by simpa using hl, g1, d1, g1', v1, row1, a, b, c, e, f⟩
      · intro i hi
        have hne : id ≠ i := fun e => hi (e ▸ List.mem_cons_self)
        have := h4 i (fun h => hi (List.mem_cons_of_mem _ h))
        rw [List.getElem?_set_ne hne, List.getElem?_set_ne hne] at this
        exact this
    · rintro ⟨h1, h2, h3, h4⟩
      obtain ⟨hlt, g, d, g', v, row, a, b, c, e, f⟩ := h3 id List.mem_cons_self
      have hlg : id < gens.length := (List.getElem?_eq_some_iff.mp a).1
      refine ⟨(g, d), (pyGet_nat_ok _ _ _).mpr a, bind_ok_iff.mpr ⟨(g', v), c, bind_ok_iff.mpr ⟨row, e, bind_ok_iff.mpr
        ⟨rows.set id row, (pySet_nat_ok _ _ _ _).mpr ⟨hlt, rfl⟩, ?_⟩⟩⟩⟩
      refine (ih hnd _ _).mpr ⟨by simpa using h1, by simpa using h2, ?_, ?_⟩
      · intro i hi
        have hne : id ≠ i := fun e => hni (e ▸ hi)
        rw [List.getElem?_set_ne hne, List.length_set]
        exact h3 i (List.mem_cons_of_mem _ hi)
      · intro i hi
        by_cases hii : i = id
        · subst hii
          constructor
          · rw [b]; simp [hlg]
          · rw [f]; simp [hlt]
        · rw [List.getElem?_set_ne (Ne.symm hii), List.getElem?_set_ne (Ne.symm hii)]
          exact h4 i (by simp [hii, hi])

/-- One round: generators asked for `x`, then every consumer fed the events made of its own rows. -/
def RoundRel (ops : Ops G C K) (ask : G → Int → Except PyErr (G × List (Fl K))) (n : Int → Nat) (needed : List Nat)
    (evs : Int → List (List (Fl K)) → List (CEvent K)) (x : Int) (s s' : List (G × Nat) × List (C × List Nat)) : Prop :=
  ∃ R : Nat → Int → List (Fl K), AllAsked ask n needed R [x] s.1 s'.1 ∧
    AllFed ops (fun ids => evs x (ids.map fun id => R id x)) s.2 s'.2

/-- Several rounds. -/
def RoundsRel (ops : Ops G C K) (ask : G → Int → Except PyErr (G × List (Fl K))) (n : Int → Nat) (needed : List Nat)
    (evs : Int → List (List (Fl K)) → List (CEvent K)) : List Int → List (G × Nat) × List (C × List Nat) →
    List (G × Nat) × List (C × List Nat) → Prop
  | [], s, s' => s' = s
  | x :: xs, s, s' => ∃ s1, RoundRel ops ask n needed evs x s s1 ∧ RoundsRel ops ask n needed evs xs s1 s'

theorem forall₂_iff_getElem? {α β : Type} (P : α → β → Prop) (l : List α) (l' : List β) :
    List.Forall₂ P l l' ↔ l'.length = l.length ∧ ∀ (i : Nat) (a : α) (b : β), l[i]? = some a → l'[i]? = some b → P a b := by
  induction l generalizing l' with
  | nil => cases l' <;> simp
  | cons a l ih =>
    cases l' with
    | nil => simp
    | cons b l' =>
      rw [List.forall₂_cons, ih]
      constructor
      · rintro ⟨h1, h2, h3⟩
        refine ⟨by simp [h2], ?_⟩
        intro i x y hx hy
        cases i with
        | zero => simp at hx hy; subst hx; subst hy; exact h1
        | succ i => exact h3 i x y (by simpa using hx) (by simpa using hy)
      · rintro ⟨h1, h2⟩
        exact ⟨h2 0 a b rfl rfl, by simpa using h1, fun i x y hx hy => h2 (i + 1) x y (by simpa using hx) (by simpa using hy)⟩

theorem Spec.Gives.congr {ask : G → Int → Except PyErr (G × List (Fl K))} {n : Int → Nat} {r r' : Int → List (Fl K)} {xs : List Int}
    {g g' : G} (h : ∀ x ∈ xs, r x = r' x) (hg : Gives ask n r xs g g') : Gives ask n r' xs g g' := by
  induction xs generalizing g with
  | nil => exact hg
  | cons x xs ih =>
    obtain ⟨g1, v, h1, h2, h3⟩ := hg
    exact ⟨g1, v, h1, by rw [← h x List.mem_cons_self]; exact h2, ih (fun y hy => h y (List.mem_cons_of_mem _ hy)) h3⟩

theorem Spec.AllFed.trans {ops : Ops G C K} {e1 e2 : List Nat → List (CEvent K)} {a b c : List (C × List Nat)}
    (h1 : AllFed ops e1 a b) (h2 : AllFed ops e2 b c) : AllFed ops (fun ids => e1 ids ++ e2 ids) a c := by
  unfold AllFed at *
  rw [forall₂_iff_getElem?] at *
  refine ⟨h2.1.trans h1.1, ?_⟩
  intro i x z hx hz
  have hi : i < b.length := by rw [h1.1]; exact (List.getElem?_eq_some_iff.mp hx).1
  obtain ⟨p1, p2⟩ := h1.2 i x b[i] hx (List.getElem?_eq_getElem hi)
  obtain ⟨q1, q2⟩ := h2.2 i b[i] z (List.getElem?_eq_getElem hi) hz
  refine ⟨q1.trans p1, ?_⟩
  rw [feed_append_ok]
  exact ⟨_, p2, by rw [← p1]; exact q2⟩

theorem Spec.AllFed.split {ops : Ops G C K} {e1 e2 : List Nat → List (CEvent K)} {a c : List (C × List Nat)}
    (h : AllFed ops (fun ids => e1 ids ++ e2 ids) a c) : ∃ b, AllFed ops e1 a b ∧ AllFed ops e2 b c := by
  unfold AllFed at *
  induction h with
  | nil => exact ⟨[], .nil, .nil⟩
  | @cons x z xs zs hh _ ih =>
    obtain ⟨b, h1, h2⟩ := ih
    obtain ⟨p1, p2⟩ := hh
    obtain ⟨y, q1, q2⟩ := (feed_append_ok _ _ _ _ _).mp p2
    exact ⟨(y, x.2) :: b, .cons ⟨rfl, q1⟩ h1, .cons ⟨p1, q2⟩ h2⟩

theorem Spec.AllFed.congr {ops : Ops G C K} {e1 e2 : List Nat → List (CEvent K)} {a b : List (C × List Nat)}
    (h : AllFed ops e1 a b) (he : ∀ c ∈ a, e1 c.2 = e2 c.2) : AllFed ops e2 a b := by
  unfold AllFed at *
  induction h with
  | nil => exact .nil
  | cons hh _ ih =>
    refine .cons ⟨hh.1, ?_⟩ (ih fun c hc => he c (List.mem_cons_of_mem _ hc))
    rw [← he _ List.mem_cons_self]; exact hh.2

theorem Spec.AllFed.nil_eq {ops : Ops G C K} {a b : List (C × List Nat)} (h : AllFed ops (fun _ => []) a b) : b = a := by
  unfold AllFed at h
  induction h with
  | nil => rfl
  | @cons x y _ _ hh _ ih =>
    obtain ⟨h1, h2⟩ := hh
    simp only [feed, Except.ok.injEq] at h2
    rw [ih, show y = x from Prod.ext h2.symm h1]

theorem Spec.AllFed.refl_nil (ops : Ops G C K) (a : List (C × List Nat)) : AllFed ops (fun _ => []) a a := by
  unfold AllFed
  induction a with
  | nil => exact .nil
  | cons c a ih => exact .cons ⟨rfl, rfl⟩ ih

theorem Spec.AllFed.ids {ops : Ops G C K} {e : List Nat → List (CEvent K)} {a b : List (C × List Nat)} (h : AllFed ops e a b) :
    b.map Prod.snd = a.map Prod.snd := by
  unfold AllFed at h
  induction h with
  | nil => rfl
  | cons hh _ ih => simp [hh.1, ih]

/-- The ids used by the consumers are all needed. -/
def Covers (needed : List Nat) (cons : List (C × List Nat)) : Prop := ∀ c ∈ cons, ∀ id ∈ c.2, id ∈ needed

theorem Covers.of_ids {needed : List Nat} {a b : List (C × List Nat)} (h : b.map Prod.snd = a.map Prod.snd)
    (hc : Covers needed a) : Covers needed b := by
  intro c hcb id hid
  have : c.2 ∈ b.map Prod.snd := List.mem_map.mpr ⟨c, hcb, rfl⟩
  rw [h] at this
  obtain ⟨c', h1, h2⟩ := List.mem_map.mp this
  exact hc c' h1 id (by rw [h2]; exact hid)

/-- Rounds, all at once: each needed generator produces its own sequence of rows, each consumer receives its own events. -/
theorem RoundsRel_iff (ops : Ops G C K) (ask : G → Int → Except PyErr (G × List (Fl K))) (n : Int → Nat) (needed : List Nat)
    (evs : Int → List (List (Fl K)) → List (CEvent K)) (xs : List Int) (hnd : xs.Nodup)
    (s s' : List (G × Nat) × List (C × List Nat)) (hc : Covers needed s.2) (hv : ∀ id ∈ needed, id < s.1.length) :
    RoundsRel ops ask n needed evs xs s s' ↔
      ∃ R : Nat → Int → List (Fl K), AllAsked ask n needed R xs s.1 s'.1 ∧
        AllFed ops (fun ids => xs.flatMap fun x => evs x (ids.map fun id => R id x)) s.2 s'.2 := by
  induction xs generalizing s with
  | nil =>
    simp only [RoundsRel, List.flatMap_nil]
    constructor
    · rintro rfl
      refine ⟨fun _ _ => [], ⟨rfl, ?_, fun _ _ => rfl⟩, AllFed.refl_nil ops _⟩
      intro id hid
      have := hv id hid
      exact ⟨s'.1[id].1, s'.1[id].2, s'.1[id].1, by simp [List.getElem?_eq_getElem this], by simp [List.getElem?_eq_getElem this], rfl⟩
    · rintro ⟨R, ⟨h1, h2, h3⟩, h4⟩
      refine Prod.ext ?_ h4.nil_eq
      apply List.ext_getElem?
      intro i
      by_cases hi : i ∈ needed
      · obtain ⟨g, d, g', a, b, c⟩ := h2 i hi
        have : g' = g := c
        rw [a, b, this]
      · exact h3 i hi
  | cons x xs ih =>
    obtain ⟨hx, hnd'⟩ := List.nodup_cons.mp hnd
    simp only [RoundsRel]
    constructor
    · rintro ⟨s1, ⟨R1, ⟨a1, a2, a3⟩, hf1⟩, hr⟩
      have hc1 : Covers needed s1.2 := Covers.of_ids hf1.ids hc
      obtain ⟨R2, ⟨b1, b2, b3⟩, hf2⟩ := (ih hnd' s1 hc1 (fun id h => by rw [a1]; exact hv id h)).mp hr
      let R : Nat → Int → List (Fl K) := fun id y => if y = x then R1 id y else R2 id y
      have hR2 : ∀ id, ∀ y ∈ xs, R2 id y = R id y := by
        intro id y hy
        show _ = if _ then _ else _
        rw [if_neg (fun h : y = x => hx (h ▸ hy))]
      refine ⟨R, ⟨b1.trans a1, ?_, fun id h => (b3 id h).trans (a3 id h)⟩, ?_⟩
      · intro id hid
        obtain ⟨g, d, g1, p1, p2, p3⟩ := a2 id hid
        obtain ⟨g1', d', g', q1, q2, q3⟩ := b2 id hid
        rw [p2] at q1
        obtain ⟨rfl, rfl⟩ := Prod.mk.inj (Option.some.inj q1)
        obtain ⟨g2, v, r1, r2, r3⟩ := p3
        have : g1 = g2 := r3
        subst this
        refine ⟨g, d, g', p1, q2, g1, v, r1, ?_, q3.congr (hR2 id)⟩
        show _ = Except.ok (if _ then _ else _)
        rw [if_pos rfl]; exact r2
      · refine (hf1.trans hf2).congr ?_
        intro c _
        simp only [List.flatMap_cons]
        congr 1
        · congr 1
          apply List.map_congr_left
          intro id _
          show _ = if _ then _ else _
          rw [if_pos rfl]
        · rw [List.flatMap_def, List.flatMap_def]
          congr 1
          apply List.map_congr_left
          intro y hy
          congr 1
          apply List.map_congr_left
          intro id _
          exact hR2 id y hy
    · rintro ⟨R, ⟨a1, a2, a3⟩, hf⟩
      simp only [List.flatMap_cons] at hf
      obtain ⟨b, hf1, hf2⟩ := AllFed.split hf
      -- the generators after the first round
      classical
      let mid : List (G × Nat) := (List.range s.1.length).attach.map fun ⟨i, hi⟩ =>
        if h : i ∈ needed then ((a2 i h).choose_spec.choose_spec.choose_spec.2.2.choose, (a2 i h).choose_spec.choose)
        else s.1[i]'(List.mem_range.mp hi)
      have hmidlen : mid.length = s.1.length := by simp [mid]
      have hmid : ∀ (i : Nat) (hi : i < s.1.length), mid[i]? = some (if h : i ∈ needed then
          ((a2 i h).choose_spec.choose_spec.choose_spec.2.2.choose, (a2 i h).choose_spec.choose) else s.1[i]) := by
        intro i hi
        simp [mid, hi]
      have hmid1 : ∀ id (h : id ∈ needed), ∃ g d g' g1 v, s.1[id]? = some (g, d) ∧ s'.1[id]? = some (g', d) ∧ mid[id]? = some (g1, d) ∧
          ask g x = .ok (g1, v) ∧ npRow (n x) v = .ok (R id x) ∧ Gives ask n (R id) xs g1 g' := by
        intro id hid
        have := hmid id (hv id hid)
        rw [dif_pos hid] at this
        have hs := (a2 id hid).choose_spec.choose_spec.choose_spec
        obtain ⟨v, e1, e2, e3⟩ := hs.2.2.choose_spec
        exact ⟨_, _, _, _, v, hs.1, hs.2.1, this, e1, e2, e3⟩
      have hmid2 : ∀ id, id ∉ needed → mid[id]? = s.1[id]? := by
        intro id hid
        by_cases hl : id < s.1.length
        · rw [hmid id hl, dif_neg hid, List.getElem?_eq_getElem hl]
        · rw [List.getElem?_eq_none (by omega), List.getElem?_eq_none (by omega)]
      refine ⟨(mid, b), ⟨R, ⟨hmidlen, ?_, hmid2⟩, hf1⟩, ?_⟩
      · intro id hid
        obtain ⟨g, d, g', g1, v, e1, e2, e3, e4, e5, e6⟩ := hmid1 id hid
        exact ⟨g, d, g1, e1, e3, g1, v, e4, e5, rfl⟩
      · refine (ih hnd' (mid, b) (Covers.of_ids hf1.ids hc) (fun id h => by rw [hmidlen]; exact hv id h)).mpr
          ⟨R, ⟨a1.trans hmidlen.symm, ?_, fun id h => (a3 id h).trans (hmid2 id h).symm⟩, hf2⟩
        intro id hid
        obtain ⟨g, d, g', g1, v, e1, e2, e3, e4, e5, e6⟩ := hmid1 id hid
        exact ⟨g1, d, g', e3, e2, e6⟩

/-- Generators and consumers of one round, as the loops of both calculators do it (`tr` is applied to the table between). -/
theorem round_iff (ops : Ops G C K) (ask : G → Int → Except PyErr (G × List (Fl K))) (n : Int → Nat) (needed : List Nat)
    (hnd : needed.Nodup) (evs : Int → List (List (Fl K)) → List (CEvent K)) (tr : List (Fl K) → List (Fl K)) (x : Int)
    (gens gens' : List (G × Nat)) (cons cons' : List (C × List Nat)) (rows : List (List (Fl K)))
    (hrows : rows.length = gens.length) (hc : Covers needed cons)
    (deliver : C → List (List (Fl K)) → Except PyErr C)
    (hdel : ∀ c vals, deliver c (vals.map tr) = feed ops c (evs x vals)) :
    (∃ rows', Calc.genStep (fun g => ask g x) (n x) needed gens rows = .ok (gens', rows') ∧
      cons.mapM (fun c => do
        let vals ← c.2.mapM fun id : Nat => pyGet (rows'.map tr) (id : Int)
        let c' ← deliver c.1 vals
        return (c', c.2)) = .ok cons') ↔
      RoundRel ops ask n needed evs x (gens, cons) (gens', cons') := by
  have cons_iff : ∀ (rows' : List (List (Fl K))) (R : Nat → Int → List (Fl K)), (∀ id ∈ needed, rows'[id]? = some (R id x)) →
      (cons.mapM (fun c => do
        let vals ← c.2.mapM fun id : Nat => pyGet (rows'.map tr) (id : Int)
        let c' ← deliver c.1 vals
        return (c', c.2)) = .ok cons' ↔ AllFed ops (fun ids => evs x (ids.map fun id => R id x)) cons cons') := by
    intro rows' R hR
    rw [mapM_ok_iff]
    unfold AllFed
    have hvals : ∀ c ∈ cons, (c.2.mapM fun id : Nat => pyGet (rows'.map tr) ((id : Nat) : Int)) = .ok ((c.2.map fun id => R id x).map tr) := by
      intro c hcm
      rw [List.map_map]
      apply mapM_ok_map
      intro id hid
      rw [pyGet_nat_ok, List.getElem?_map, hR id (hc c hcm id hid)]
      rfl
    constructor
    · intro h
      induction h with
      | nil => exact .nil
      | @cons c c' l l' hh _ ih =>
        refine .cons ?_ (ih (fun c hcm => hc c (List.mem_cons_of_mem _ hcm)) (fun c hcm => hvals c (List.mem_cons_of_mem _ hcm)))
        rw [hvals c List.mem_cons_self] at hh
        obtain ⟨vals, h1, hh⟩ := bind_ok_iff.mp hh
        cases h1
        obtain ⟨c1, h2, hh⟩ := bind_ok_iff.mp hh
        rw [pure_ok_iff] at hh
        subst hh
        rw [hdel] at h2
        exact ⟨rfl, h2⟩
    · intro h
      induction h with
      | nil => exact .nil
      | @cons c c' l l' hh _ ih =>
        refine .cons ?_ (ih (fun c hcm => hc c (List.mem_cons_of_mem _ hcm)) (fun c hcm => hvals c (List.mem_cons_of_mem _ hcm)))
        rw [hvals c List.mem_cons_self]
        refine bind_ok_iff.mpr ⟨_, rfl, bind_ok_iff.mpr ⟨c'.1, ?_, ?_⟩⟩
        · rw [hdel]; exact hh.2
        · rw [pure_ok_iff, ← hh.1]
  constructor
  · rintro ⟨rows', hg, hcs⟩
    obtain ⟨h1, h2, h3, h4⟩ := (genStep_iff _ _ _ hnd _ _ _ _).mp hg
    let R : Nat → Int → List (Fl K) := fun id _ => (rows'[id]?).getD []
    have hR : ∀ id ∈ needed, rows'[id]? = some (R id x) := by
      intro id hid
      obtain ⟨_, g, d, g', v, row, _, _, _, _, e⟩ := h3 id hid
      show _ = some ((rows'[id]?).getD [])
      rw [e]; rfl
    refine ⟨R, ⟨h1, ?_, fun id h => (h4 id h).1⟩, (cons_iff rows' R hR).mp hcs⟩
    intro id hid
    obtain ⟨_, g, d, g', v, row, a, b, c, e, f⟩ := h3 id hid
    have := hR id hid
    rw [f] at this
    exact ⟨g, d, g', a, b, g', v, c, by rw [e]; congr 1; exact Option.some.inj this, rfl⟩
  · rintro ⟨R, ⟨h1, h2, h3⟩, hf⟩
    -- the table after the generators have been asked
    let rows' : List (List (Fl K)) := rows.mapIdx fun i r => if i ∈ needed then R i x else r
    have hlen : rows'.length = rows.length := by simp [rows']
    have hin : ∀ id ∈ needed, id < gens.length := by
      intro id hid
      obtain ⟨g, d, g', a, _⟩ := h2 id hid
      exact (List.getElem?_eq_some_iff.mp a).1
    have hR : ∀ id ∈ needed, rows'[id]? = some (R id x) := by
      intro id hid
      have := hin id hid
      simp [rows', List.getElem?_mapIdx, List.getElem?_eq_getElem (show id < rows.length by omega), hid]
    have hR2 : ∀ id, id ∉ needed → rows'[id]? = rows[id]? := by
      intro id hid
      simp only [rows', List.getElem?_mapIdx, hid, if_false]
      simp
    refine ⟨rows', (genStep_iff _ _ _ hnd _ _ _ _).mpr ⟨h1, hlen, ?_, fun id h => ⟨h3 id h, hR2 id h⟩⟩, (cons_iff rows' R hR).mpr hf⟩
    intro id hid
    obtain ⟨g, d, g', a, b, g1, v, e1, e2, e3⟩ := h2 id hid
    have : g' = g1 := e3
    subst this
    exact ⟨by have := hin id hid; omega, g, d, g', v, R id x, a, b, e1, e2, hR id hid⟩

end Verif
