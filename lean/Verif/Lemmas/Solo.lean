import Verif.Lemmas.Calculator
import Verif.Model.Batch

/-!
A calculator with several consumers next to calculators that have one of the consumers each.
-/

namespace Verif
variable {G C D K : Type}

/-- The class `D` with the methods `ops1` is one of the classes `C` of consumers. -/
structure Emb (ops1 : Ops G D K) (ops : Ops G C K) (e : D → C) : Prop where
  calcColumn : ops1.calcColumn = ops.calcColumn
  calcDiagonal : ops1.calcDiagonal = ops.calcDiagonal
  appendSeries : ops1.appendSeries = ops.appendSeries
  appendQuery : ops1.appendQuery = ops.appendQuery
  initialise : ∀ d n q s, ops.initialise (e d) n q s = (ops1.initialise d n q s).map e
  processColumn : ∀ d c v, ops.processColumn (e d) c v = (ops1.processColumn d c v).map e
  processDiagonal : ∀ d c v, ops.processDiagonal (e d) c v = (ops1.processDiagonal d c v).map e
  shiftSeries : ∀ d n, ops.shiftSeries (e d) n = (ops1.shiftSeries d n).map e
  shiftQuery : ∀ d n, ops.shiftQuery (e d) n = (ops1.shiftQuery d n).map e

theorem Emb.deliverDiagonal {ops1 : Ops G D K} {ops : Ops G C K} {e : D → C} (h : Emb ops1 ops e) (selfJoin : Bool) (x : Int) (d : D) (v : List (List (Fl K))) :
    Anytime.deliverDiagonal ops selfJoin x (e d) v = (Anytime.deliverDiagonal ops1 selfJoin x d v).map e := by
  unfold Anytime.deliverDiagonal
  rw [h.processDiagonal]
  cases ops1.processDiagonal d x v with
  | error => rfl
  | ok d' =>
    cases selfJoin
    · rfl
    · exact h.processDiagonal d' (-x) v

theorem map_ok_iff {α β : Type} {x : Except PyErr α} {f : α → β} {b : β} : x.map f = .ok b ↔ ∃ a, x = .ok a ∧ f a = b := by
  cases x with
  | error e => simp [Except.map]
  | ok a => simp [Except.map]

/-- Steps of one calculator, `fb`, and of several others, `fa`, with states that are related by `R` before and by `S` after. -/
structure Joint {κ : Type} {A A' : κ → Type} {B B' : Type} (R : ∀ k, A k → B → Prop) (S : ∀ k, A' k → B' → Prop) (fa : ∀ k, A k → Except PyErr (A' k))
    (fb : B → Except PyErr B') : Prop where
  fwd : ∀ k a b b', R k a b → fb b = .ok b' → ∃ a', fa k a = .ok a' ∧ S k a' b'
  bwd : ∀ b (as : ∀ k, A k), (∀ k, R k (as k) b) → (∀ k, ∃ a', fa k (as k) = .ok a') → ∃ b', fb b = .ok b'

namespace Joint
variable {κ X : Type} {A A' A'' : κ → Type} {B B' B'' : Type} {R : ∀ k, A k → B → Prop} {S : ∀ k, A' k → B' → Prop} {T : ∀ k, A'' k → B'' → Prop}

theorem bind {fa : ∀ k, A k → Except PyErr (A' k)} {fb : B → Except PyErr B'} {ga : ∀ k, A' k → Except PyErr (A'' k)} {gb : B' → Except PyErr B''}
    (h : Joint R S fa fb) (h' : Joint S T ga gb) : Joint R T (fun k a => fa k a >>= ga k) (fun b => fb b >>= gb) where
  fwd := by
    intro k a b b' hr hb
    obtain ⟨b1, e1, e2⟩ := bind_ok_iff.mp hb
    obtain ⟨a1, e3, e4⟩ := h.fwd k a b b1 hr e1
    obtain ⟨a2, e5, e6⟩ := h'.fwd k a1 b1 b' e4 e2
    exact ⟨a2, bind_ok_iff.mpr ⟨a1, e3, e5⟩, e6⟩
  bwd := by
    intro b as hr ha
    have ha1 : ∀ k, ∃ a1, fa k (as k) = .ok a1 ∧ ∃ a2, ga k a1 = .ok a2 := fun k => by
      obtain ⟨a2, e⟩ := ha k
      obtain ⟨a1, e1, e2⟩ := bind_ok_iff.mp e
      exact ⟨a1, e1, a2, e2⟩
    choose as1 g1 g2 using ha1
    obtain ⟨b1, e1⟩ := h.bwd b as hr fun k => ⟨as1 k, g1 k⟩
    have hs : ∀ k, S k (as1 k) b1 := fun k => by
      obtain ⟨a', e2, e3⟩ := h.fwd k (as k) b b1 (hr k) e1
      rw [g1 k] at e2
      cases e2
      exact e3
    obtain ⟨b2, e2⟩ := h'.bwd b1 as1 hs g2
    exact ⟨b2, bind_ok_iff.mpr ⟨b1, e1, e2⟩⟩

theorem pure' {fa : ∀ k, A k → A' k} {fb : B → B'} (h : ∀ k a b, R k a b → S k (fa k a) (fb b)) : Joint R S (fun k a => .ok (fa k a)) (fun b => .ok (fb b)) where
  fwd := by
    intro k a b b' hr hb
    cases hb
    exact ⟨_, rfl, h k a b hr⟩
  bwd := fun b _ _ _ => ⟨_, rfl⟩

/-- Something calculated first that is the same in all of them. -/
theorem first [Nonempty κ] {x : ∀ k, A k → Except PyErr X} {y : B → Except PyErr X} (hxy : ∀ k a b, R k a b → x k a = y b) {fa : X → ∀ k, A k → Except PyErr (A' k)}
    {fb : X → B → Except PyErr B'} (h : ∀ v, Joint (fun k a b => R k a b ∧ y b = .ok v) S (fa v) (fb v)) :
    Joint R S (fun k a => x k a >>= fun v => fa v k a) (fun b => y b >>= fun v => fb v b) where
  fwd := by
    intro k a b b' hr hb
    obtain ⟨v, e1, e2⟩ := bind_ok_iff.mp hb
    obtain ⟨a', e3, e4⟩ := (h v).fwd k a b b' ⟨hr, e1⟩ e2
    exact ⟨a', bind_ok_iff.mpr ⟨v, by rw [hxy k a b hr]; exact e1, e3⟩, e4⟩
  bwd := by
    intro b as hr ha
    obtain ⟨k0⟩ := ‹Nonempty κ›
    have hv : ∀ k, ∃ v, y b = .ok v ∧ ∃ a', fa v k (as k) = .ok a' := fun k => by
      obtain ⟨a', e⟩ := ha k
      obtain ⟨v, e1, e2⟩ := bind_ok_iff.mp e
      exact ⟨v, by rw [← hxy k _ b (hr k)]; exact e1, a', e2⟩
    obtain ⟨v, e1, -⟩ := hv k0
    obtain ⟨b', e2⟩ := (h v).bwd b as (fun k => ⟨hr k, e1⟩) fun k => by
      obtain ⟨v', e1', a', e2⟩ := hv k
      rw [e1] at e1'
      cases e1'
      exact ⟨a', e2⟩
    exact ⟨b', bind_ok_iff.mpr ⟨v, e1, e2⟩⟩

/-- A decision that is the same in all of them. -/
theorem ite' {p : ∀ k, A k → Prop} {q : B → Prop} [∀ k a, Decidable (p k a)] [∀ b, Decidable (q b)] (hpq : ∀ k a b, R k a b → (p k a ↔ q b))
    {fa ga : ∀ k, A k → Except PyErr (A' k)} {fb gb : B → Except PyErr B'} (h1 : Joint (fun k a b => R k a b ∧ q b) S fa fb) (h2 : Joint (fun k a b => R k a b ∧ ¬ q b) S ga gb) :
    Joint R S (fun k a => if p k a then fa k a else ga k a) (fun b => if q b then fb b else gb b) where
  fwd := by
    intro k a b b' hr hb
    by_cases hq : q b
    · rw [if_pos hq] at hb
      rw [if_pos ((hpq k a b hr).mpr hq)]
      exact h1.fwd k a b b' ⟨hr, hq⟩ hb
    · rw [if_neg hq] at hb
      rw [if_neg fun h => hq ((hpq k a b hr).mp h)]
      exact h2.fwd k a b b' ⟨hr, hq⟩ hb
  bwd := by
    intro b as hr ha
    by_cases hq : q b
    · rw [if_pos hq]
      refine h1.bwd b as (fun k => ⟨hr k, hq⟩) fun k => ?_
      have := ha k
      rwa [if_pos ((hpq k _ b (hr k)).mpr hq)] at this
    · rw [if_neg hq]
      refine h2.bwd b as (fun k => ⟨hr k, hq⟩) fun k => ?_
      have := ha k
      rwa [if_neg fun h => hq ((hpq k _ b (hr k)).mp h)] at this

theorem weaken {R' : ∀ k, A k → B → Prop} {S' : ∀ k, A' k → B' → Prop} {fa : ∀ k, A k → Except PyErr (A' k)} {fb : B → Except PyErr B'} (h : Joint R S fa fb)
    (hr : ∀ k a b, R' k a b → R k a b) (hs : ∀ k a b, S k a b → S' k a b) : Joint R' S' fa fb where
  fwd := by
    intro k a b b' h1 h2
    obtain ⟨a', e1, e2⟩ := h.fwd k a b b' (hr k a b h1) h2
    exact ⟨a', e1, hs _ _ _ e2⟩
  bwd := fun b as h1 h2 => h.bwd b as (fun k => hr k _ b (h1 k)) h2

theorem congr {fa fa' : ∀ k, A k → Except PyErr (A' k)} {fb fb' : B → Except PyErr B'} (h : Joint R S fa fb) (ha : ∀ k a, fa' k a = fa k a) (hb : ∀ b, fb' b = fb b) :
    Joint R S fa' fb' := by
  rw [show fa' = fa from funext fun k => funext (ha k), show fb' = fb from funext hb]
  exact h

theorem congr' {fa fa' : ∀ k, A k → Except PyErr (A' k)} {fb fb' : B → Except PyErr B'} (h : Joint R S fa fb) (ha : ∀ k a b, R k a b → fa' k a = fa k a)
    (hb : ∀ k a b, R k a b → fb' b = fb b) [Nonempty κ] : Joint R S fa' fb' where
  fwd := by
    intro k a b b' hr h1
    rw [hb k a b hr] at h1
    rw [ha k a b hr]
    exact h.fwd k a b b' hr h1
  bwd := by
    intro b as hr h1
    obtain ⟨k0⟩ := ‹Nonempty κ›
    rw [hb k0 _ b (hr k0)]
    refine h.bwd b as hr fun k => ?_
    obtain ⟨a', h2⟩ := h1 k
    rw [ha k _ b (hr k)] at h2
    exact ⟨a', h2⟩

/-- Something the steps depend on that is the same in all of them. -/
theorem param (p : ∀ k, A k → X) (q : B → X) (hpq : ∀ k a b, R k a b → p k a = q b) {fa : X → ∀ k, A k → Except PyErr (A' k)} {fb : X → B → Except PyErr B'}
    (h : ∀ v, Joint R S (fa v) (fb v)) : Joint R S (fun k a => fa (p k a) k a) (fun b => fb (q b) b) where
  fwd := by
    intro k a b b' hr hb
    rw [show p k a = q b from hpq k a b hr]
    exact (h (q b)).fwd k a b b' hr hb
  bwd := by
    intro b as hr ha
    refine (h (q b)).bwd b as hr fun k => ?_
    obtain ⟨a', h⟩ := ha k
    rw [hpq k _ b (hr k)] at h
    exact ⟨a', h⟩

/-- A step on a part of the state, the result of which is used together with the state. -/
theorem stage {Z : κ → Type} {W : Type} {Q : ∀ k, Z k → W → Prop} (pa : ∀ k, Z k → A k) (pb : W → B) {fa : ∀ k, A k → Except PyErr (A' k)} {fb : B → Except PyErr B'}
    {ga : ∀ k, A' k → Z k → Except PyErr (A'' k)} {gb : B' → W → Except PyErr B''} (h : Joint R S fa fb) (hq : ∀ k z w, Q k z w → R k (pa k z) (pb w))
    (h' : Joint (A := fun k => A' k × Z k) (B := B' × W) (fun k a b => S k a.1 b.1 ∧ Q k a.2 b.2) T (fun k a => ga k a.1 a.2) (fun b => gb b.1 b.2)) :
    Joint Q T (fun k z => fa k (pa k z) >>= fun x => ga k x z) (fun w => fb (pb w) >>= fun x => gb x w) where
  fwd := by
    intro k z w b' hr hb
    obtain ⟨b1, e1, e2⟩ := bind_ok_iff.mp hb
    obtain ⟨a1, e3, e4⟩ := h.fwd k _ _ b1 (hq k z w hr) e1
    obtain ⟨a2, e5, e6⟩ := h'.fwd k (a1, z) (b1, w) b' ⟨e4, hr⟩ e2
    exact ⟨a2, bind_ok_iff.mpr ⟨a1, e3, e5⟩, e6⟩
  bwd := by
    intro w zs hr ha
    have ha1 : ∀ k, ∃ a1, fa k (pa k (zs k)) = .ok a1 ∧ ∃ a2, ga k a1 (zs k) = .ok a2 := fun k => by
      obtain ⟨a2, e⟩ := ha k
      obtain ⟨a1, e1, e2⟩ := bind_ok_iff.mp e
      exact ⟨a1, e1, a2, e2⟩
    choose as1 g1 g2 using ha1
    obtain ⟨b1, e1⟩ := h.bwd (pb w) (fun k => pa k (zs k)) (fun k => hq k _ _ (hr k)) fun k => ⟨as1 k, g1 k⟩
    have hs : ∀ k, S k (as1 k) b1 := fun k => by
      obtain ⟨a', e2, e3⟩ := h.fwd k _ _ b1 (hq k _ _ (hr k)) e1
      rw [g1 k] at e2
      cases e2
      exact e3
    obtain ⟨b2, e2⟩ := h'.bwd (b1, w) (fun k => (as1 k, zs k)) (fun k => ⟨hs k, hr k⟩) g2
    exact ⟨b2, bind_ok_iff.mpr ⟨b1, e1, e2⟩⟩

theorem error' (e : PyErr) [Nonempty κ] : Joint (A := A) (A' := A') R S (fun _ _ => .error e) (fun _ => .error e) where
  fwd := by intro _ _ _ _ _ h; cases h
  bwd := by
    intro b as _ h
    obtain ⟨k0⟩ := ‹Nonempty κ›
    obtain ⟨_, h⟩ := h k0
    cases h

end Joint

/-- Generators of which the `ids` are in the same states, and the others in states related by `R`. -/
structure Agree (R : G → G → Prop) (ids : List Nat) (a b : List (G × Nat)) : Prop where
  length : a.length = b.length
  same : ∀ id ∈ ids, a[id]? = b[id]?
  near : ∀ (i : Nat) x y, a[i]? = some x → b[i]? = some y → x.2 = y.2 ∧ R x.1 y.1

/-- Tables with the same rows `ids`. -/
structure RowsAgree (ids : List Nat) (a b : List (List (Fl K))) : Prop where
  length : a.length = b.length
  same : ∀ id ∈ ids, a[id]? = b[id]?

/-- The generators can be asked. -/
theorem genStep_exists (ask : G → Except PyErr (G × List (Fl K))) (n : Nat) : ∀ (ids : List Nat), ids.Nodup → ∀ (gens : List (G × Nat)) (rows : List (List (Fl K))),
    (∀ id ∈ ids, id < rows.length ∧ ∃ g d g' v row, gens[id]? = some (g, d) ∧ ask g = .ok (g', v) ∧ npRow n v = .ok row) →
      ∃ gens' rows', Calc.genStep ask n ids gens rows = .ok (gens', rows')
  | [], _, gens, rows, _ => ⟨gens, rows, rfl⟩
  | id :: ids, hnd, gens, rows, h => by
    obtain ⟨hlt, g, d, g', v, row, e1, e2, e3⟩ := h id (List.mem_cons_self ..)
    obtain ⟨hni, hnd'⟩ := List.nodup_cons.mp hnd
    obtain ⟨gens', rows', e4⟩ := genStep_exists ask n ids hnd' (gens.set id (g', d)) (rows.set id row) (by
      intro j hj
      obtain ⟨hlt, g1, d1, g1', v1, row1, f1, f2, f3⟩ := h j (List.mem_cons_of_mem _ hj)
      refine ⟨by simpa using hlt, g1, d1, g1', v1, row1, ?_, f2, f3⟩
      rw [List.getElem?_set_ne (by rintro rfl; exact hni hj)]
      exact f1)
    refine ⟨gens', rows', ?_⟩
    unfold Calc.genStep
    rw [show pyGet gens ((id : Nat) : Int) = .ok (g, d) from (pyGet_nat_ok _ _ _).mpr e1]
    show (ask g).bind _ = _
    rw [e2]
    show (npRow n v).bind _ = _
    rw [e3]
    show (pySet rows (id : Int) row).bind _ = _
    rw [show pySet rows (id : Int) row = .ok (rows.set id row) from (pySet_nat_ok _ _ _ _).mpr ⟨hlt, rfl⟩]
    exact e4

section
variable {n : Nat} {D : Fin n → Type}

/-- Calculators with the methods `ops1 k` and one consumer each, for the generators `ids k`, next to one with all the consumers; `nd` and `needed` are the generators that are needed. `R`
relates states of generators that differ only in what they were asked for. -/
structure Company (ops1 : ∀ k, Ops G (D k) K) (ops : Ops G C K) (e : ∀ k, D k → C) (ids nd : Fin n → List Nat) (needed : List Nat) (R : G → G → Prop) : Prop where
  pos : 0 < n
  emb : ∀ k, Emb (ops1 k) ops (e k)
  nodup : needed.Nodup
  mem : ∀ id, id ∈ needed ↔ ∃ k, id ∈ ids k
  nodup1 : ∀ k, (nd k).Nodup
  mem1 : ∀ k id, id ∈ nd k ↔ id ∈ ids k
  refl : ∀ g, R g g
  column : ∀ a b x b' v, R a b → ops.calcColumn b x = .ok (b', v) → R a b'
  diagonal : ∀ a b x b' v, R a b → ops.calcDiagonal b x = .ok (b', v) → R a b'

variable {ops1 : ∀ k, Ops G (D k) K} {ops : Ops G C K} {e : ∀ k, D k → C} {ids nd : Fin n → List Nat} {needed : List Nat} {R : G → G → Prop}

theorem Company.nonempty (H : Company ops1 ops e ids nd needed R) : Nonempty (Fin n) := ⟨⟨0, H.pos⟩⟩

/-- Generators being asked. -/
theorem Company.asked (H : Company ops1 ops e ids nd needed R) (ask : G → Except PyErr (G × List (Fl K))) (hask : ∀ a b b' v, R a b → ask b = .ok (b', v) → R a b') (l : Nat) :
    Joint (A := fun _ : Fin n => List (G × Nat) × List (List (Fl K))) (B := List (G × Nat) × List (List (Fl K))) (fun k a b => Agree R (nd k) a.1 b.1 ∧ RowsAgree (nd k) a.2 b.2)
      (A' := fun _ : Fin n => List (G × Nat) × List (List (Fl K))) (B' := List (G × Nat) × List (List (Fl K))) (fun k a b => Agree R (nd k) a.1 b.1 ∧ RowsAgree (nd k) a.2 b.2)
      (fun k a => Calc.genStep ask l (nd k) a.1 a.2) (fun b => Calc.genStep ask l needed b.1 b.2) where
  fwd := by
    rintro k ⟨ga, ra⟩ ⟨gb, rb⟩ ⟨gb', rb'⟩ ⟨hg, hr⟩ hb
    obtain ⟨l1, l2, l3, l4⟩ := (genStep_iff ask l needed H.nodup gb rb gb' rb').mp hb
    have hsub : ∀ id ∈ nd k, id ∈ needed := fun id h => (H.mem id).mpr ⟨k, (H.mem1 k id).mp h⟩
    obtain ⟨ga', ra', ha⟩ := genStep_exists ask l (nd k) (H.nodup1 k) ga ra (by
      intro id hid
      obtain ⟨f1, g, d, g', v, row, f2, f3, f4, f5, f6⟩ := l3 id (hsub id hid)
      exact ⟨by rw [hr.length]; exact f1, g, d, g', v, row, by rw [hg.same id hid]; exact f2, f4, f5⟩)
    obtain ⟨m1, m2, m3, m4⟩ := (genStep_iff ask l (nd k) (H.nodup1 k) ga ra ga' ra').mp ha
    have both : ∀ id ∈ nd k, ga'[id]? = gb'[id]? ∧ ra'[id]? = rb'[id]? := by
      intro id hid
      obtain ⟨-, g, d, g', v, row, f2, f3, f4, f5, f6⟩ := l3 id (hsub id hid)
      obtain ⟨-, g1, d1, g1', v1, row1, k2, k3, k4, k5, k6⟩ := m3 id hid
      rw [hg.same id hid, f2] at k2
      cases k2
      rw [f4] at k4
      cases k4
      rw [f5] at k5
      cases k5
      exact ⟨by rw [k3, f3], by rw [k6, f6]⟩
    refine ⟨(ga', ra'), ha, ⟨by rw [m1, l1]; exact hg.length, fun id hid => (both id hid).1, ?_⟩, ⟨by rw [m2, l2]; exact hr.length, fun id hid => (both id hid).2⟩⟩
    intro i x y hx hy
    by_cases hi : i ∈ nd k
    · rw [(both i hi).1, hy] at hx
      cases hx
      exact ⟨rfl, H.refl _⟩
    · rw [(m4 i hi).1] at hx
      by_cases hi' : i ∈ needed
      · obtain ⟨-, g, d, g', v, row, f2, f3, f4, f5, f6⟩ := l3 i hi'
        rw [f3] at hy
        cases hy
        obtain ⟨q1, q2⟩ := hg.near i x (g, d) hx f2
        exact ⟨q1, hask _ _ _ _ q2 f4⟩
      · rw [(l4 i hi').1] at hy
        exact hg.near i x y hx hy
  bwd := by
    rintro ⟨gb, rb⟩ as hr ha
    have := genStep_exists ask l needed H.nodup gb rb (by
      intro id hid
      obtain ⟨k, hk⟩ := (H.mem id).mp hid
      have hk := (H.mem1 k id).mpr hk
      obtain ⟨a', e1⟩ := ha k
      obtain ⟨-, -, m3, -⟩ := (genStep_iff ask l (nd k) (H.nodup1 k) _ _ a'.1 a'.2).mp e1
      obtain ⟨f1, g, d, g', v, row, f2, f3, f4, f5, f6⟩ := m3 id hk
      exact ⟨by rw [← (hr k).2.length]; exact f1, g, d, g', v, row, by rw [← (hr k).1.same id hk]; exact f2, f4, f5⟩)
    obtain ⟨gens', rows', h⟩ := this
    exact ⟨(gens', rows'), h⟩

/-- The consumer of the calculator `k` is the `k`th of all the consumers. -/
def ConsAt (e : ∀ k, D k → C) (ids : Fin n → List Nat) (k : Fin n) (a : List (D k × List Nat)) (b : List (C × List Nat)) : Prop :=
  b.length = n ∧ ∃ d, a = [(d, ids k)] ∧ b[k.1]? = some (e k d, ids k)

theorem mapM_exists {α β : Type} (f : α → Except PyErr β) : ∀ (l : List α), (∀ x ∈ l, ∃ y, f x = .ok y) → ∃ l', l.mapM f = .ok l'
  | [], _ => ⟨[], rfl⟩
  | x :: l, h => by
    obtain ⟨y, hy⟩ := h x (List.mem_cons_self ..)
    obtain ⟨l', hl⟩ := mapM_exists f l fun z hz => h z (List.mem_cons_of_mem _ hz)
    exact ⟨y :: l', by rw [List.mapM_cons, hy]; show (l.mapM f).bind _ = _; rw [hl]; rfl⟩

/-- A call on each of the consumers. -/
theorem each (pos : 0 < n) {X : Fin n → Type} {Y : Type} (Q : ∀ k, X k → Y → Prop) (f1 : ∀ k, X k → D k → List Nat → Except PyErr (D k)) (f : Y → C → List Nat → Except PyErr C)
    (hf : ∀ k x y d, Q k x y → f y (e k d) (ids k) = (f1 k x d (ids k)).map (e k)) :
    Joint (A := fun k => List (D k × List Nat) × X k) (B := List (C × List Nat) × Y) (fun k a b => ConsAt e ids k a.1 b.1 ∧ Q k a.2 b.2)
      (A' := fun k => List (D k × List Nat)) (B' := List (C × List Nat)) (ConsAt e ids)
      (fun k a => a.1.mapM fun c => do return (← f1 k a.2 c.1 c.2, c.2)) (fun b => b.1.mapM fun c => do return (← f b.2 c.1 c.2, c.2)) where
  fwd := by
    rintro k ⟨ca, x⟩ ⟨cb, y⟩ cb' ⟨⟨hl, d, hd, hk⟩, hq⟩ hb
    obtain ⟨l1, l2⟩ := (forall₂_iff_getElem? _ _ _).mp ((mapM_ok_iff _ _ _).mp hb)
    have hk' : k.1 < cb'.length := by rw [l1]; exact hl ▸ k.2
    have h1 := l2 k.1 _ _ hk (List.getElem?_eq_getElem hk')
    obtain ⟨c', e1, e2⟩ := bind_ok_iff.mp h1
    rw [show f y (e k d) (ids k) = _ from hf k x y d hq] at e1
    obtain ⟨d', e3, rfl⟩ := map_ok_iff.mp e1
    subst hd
    refine ⟨[(d', ids k)], ?_, by rw [l1]; exact hl, d', rfl, ?_⟩
    · show (f1 k x d (ids k) >>= fun d' => pure (d', ids k)) >>= _ = _
      rw [e3]
      rfl
    · rw [List.getElem?_eq_getElem hk', ← Except.ok.inj e2]
  bwd := by
    rintro ⟨cb, y⟩ as hr ha
    refine mapM_exists _ _ ?_
    intro c hc
    obtain ⟨i, hi, rfl⟩ := List.mem_iff_getElem.mp hc
    have hi : i < cb.length := hi
    have hin : i < n := by
      have := (hr ⟨0, pos⟩).1.1
      exact this ▸ hi
    obtain ⟨⟨hl, d, hd, hk⟩, hq⟩ := hr ⟨i, hin⟩
    obtain ⟨a', e1⟩ := ha ⟨i, hin⟩
    have e1 : (as ⟨i, hin⟩).1.mapM (fun c => do return (← f1 ⟨i, hin⟩ (as ⟨i, hin⟩).2 c.1 c.2, c.2)) = .ok a' := e1
    rw [hd] at e1
    have h1 := (mapM_ok_iff _ _ _).mp e1
    cases h1 with
    | cons h1 _ =>
      obtain ⟨d', e2, e3⟩ := bind_ok_iff.mp h1
      have hc' : cb[i] = (e ⟨i, hin⟩ d, ids ⟨i, hin⟩) := by
        rw [List.getElem?_eq_getElem hi] at hk
        exact Option.some.inj hk
      refine ⟨(e ⟨i, hin⟩ d', ids ⟨i, hin⟩), bind_ok_iff.mpr ⟨e ⟨i, hin⟩ d', ?_, ?_⟩⟩
      · show f y cb[i].1 cb[i].2 = _
        rw [hc']
        show f y (e ⟨i, hin⟩ d) (ids ⟨i, hin⟩) = _
        rw [hf ⟨i, hin⟩ _ y d hq]
        exact map_ok_iff.mpr ⟨d', e2, rfl⟩
      · show pure (e ⟨i, hin⟩ d', cb[i].2) = _
        rw [hc']
        rfl

theorem vals_eq {l : List Nat} {nl : List Nat} (h : ∀ id, id ∈ nl ↔ id ∈ l) {a b : List (List (Fl K))} (hr : RowsAgree nl a b) :
    (l.mapM fun id : Nat => pyGet a (id : Int)) = l.mapM fun id : Nat => pyGet b (id : Int) := by
  have : ∀ l' : List Nat, (∀ id ∈ l', id ∈ l) → (l'.mapM fun id : Nat => pyGet a (id : Int)) = l'.mapM fun id : Nat => pyGet b (id : Int) := by
    intro l'
    induction l' with
    | nil => intro _; rfl
    | cons x l' ih =>
      intro hl
      rw [List.mapM_cons, List.mapM_cons, ih fun id hid => hl id (List.mem_cons_of_mem _ hid), pyGet_nat, pyGet_nat, hr.same x ((h x).mpr (hl x (List.mem_cons_self ..)))]
  exact this l fun _ h => h

/-- Values passed to each of the consumers. -/
theorem Company.delivered (H : Company ops1 ops e ids nd needed R) (give1 : ∀ k, D k → List (List (Fl K)) → Except PyErr (D k)) (give : C → List (List (Fl K)) → Except PyErr C)
    (hg : ∀ k d v, give (e k d) v = (give1 k d v).map (e k)) :
    Joint (A := fun k => List (D k × List Nat) × List (List (Fl K))) (B := List (C × List Nat) × List (List (Fl K))) (fun k a b => ConsAt e ids k a.1 b.1 ∧ RowsAgree (nd k) a.2 b.2)
      (A' := fun k => List (D k × List Nat)) (B' := List (C × List Nat)) (ConsAt e ids)
      (fun k a => a.1.mapM fun c => do
        let vals ← c.2.mapM fun id : Nat => pyGet a.2 (id : Int)
        let c' ← give1 k c.1 vals
        return (c', c.2))
      (fun b => b.1.mapM fun c => do
        let vals ← c.2.mapM fun id : Nat => pyGet b.2 (id : Int)
        let c' ← give c.1 vals
        return (c', c.2)) := by
  refine (each (e := e) (ids := ids) H.pos (fun k a b => RowsAgree (nd k) a b)
    (fun k rows d l => do give1 k d (← l.mapM fun id : Nat => pyGet rows (id : Int)))
    (fun rows c l => do give c (← l.mapM fun id : Nat => pyGet rows (id : Int))) ?_).congr ?_ ?_
  · intro k x y d hq
    show (List.mapM (m := Except PyErr) (fun id : Nat => pyGet y (id : Int)) (ids k) >>= fun v => give (e k d) v) =
      (List.mapM (m := Except PyErr) (fun id : Nat => pyGet x (id : Int)) (ids k) >>= fun v => give1 k d v).map (e k)
    rw [vals_eq (H.mem1 k) hq]
    cases List.mapM (m := Except PyErr) (fun id : Nat => pyGet y (id : Int)) (ids k) with
    | error => rfl
    | ok v => exact hg k d v
  · intro k a
    simp only [bind_assoc]
  · intro b
    simp only [bind_assoc]

/-- The calculator `k` next to the one with all consumers. -/
structure Beside (e : ∀ k, D k → C) (ids nd : Fin n → List Nat) (R : G → G → Prop) (k : Fin n) (a : Calc G (D k)) (b : Calc G C) : Prop where
  selfJoin : a.selfJoin = b.selfJoin
  m : a.m = b.m
  nDim : a.nDim = b.nDim
  numSeries : a.numSeries = b.numSeries
  numQuery : a.numQuery = b.numQuery
  buffer : a.buffer = b.buffer
  lastCol : a.lastCol = b.lastCol
  gens : Agree R (nd k) a.gens b.gens
  cons : ConsAt e ids k a.cons b.cons

theorem RowsAgree.mask {l : List Nat} {a b : List (List (Fl K))} (h : RowsAgree l a b) (buffer column : Int) : RowsAgree l (Calc.mask buffer column a) (Calc.mask buffer column b) := by
  unfold Calc.mask
  split
  · exact ⟨by rw [List.length_map, List.length_map, h.length], fun id hid => by rw [List.getElem?_map, List.getElem?_map, h.same id hid]⟩
  · exact h

/-- One column. -/
theorem Company.columnStep (H : Company ops1 ops e ids nd needed R) (maxRow : Nat) (column : Int) :
    Joint (A := fun k => Calc G (D k) × List (List (Fl K))) (B := Calc G C × List (List (Fl K))) (fun k a b => Beside e ids nd R k a.1 b.1 ∧ RowsAgree (nd k) a.2 b.2)
      (A' := fun k => Calc G (D k) × List (List (Fl K))) (B' := Calc G C × List (List (Fl K))) (fun k a b => Beside e ids nd R k a.1 b.1 ∧ RowsAgree (nd k) a.2 b.2)
      (fun k a => Calc.columnStep (ops1 k) (nd k) maxRow column a) (fun b => Calc.columnStep ops needed maxRow column b) := by
  have h3 : Joint (A := fun k => List (D k × List Nat) × (List (G × Nat) × List (List (Fl K))) × Calc G (D k) × List (List (Fl K)))
      (B := List (C × List Nat) × (List (G × Nat) × List (List (Fl K))) × Calc G C × List (List (Fl K)))
      (fun k a b => ConsAt e ids k a.1 b.1 ∧ (Agree R (nd k) a.2.1.1 b.2.1.1 ∧ RowsAgree (nd k) a.2.1.2 b.2.1.2) ∧ Beside e ids nd R k a.2.2.1 b.2.2.1 ∧ RowsAgree (nd k) a.2.2.2 b.2.2.2)
      (A' := fun k => Calc G (D k) × List (List (Fl K))) (B' := Calc G C × List (List (Fl K))) (fun k a b => Beside e ids nd R k a.1 b.1 ∧ RowsAgree (nd k) a.2 b.2)
      (fun k z => .ok ({ z.2.2.1 with gens := z.2.1.1, cons := z.1, lastCol := max column z.2.2.1.lastCol }, Calc.mask z.2.2.1.buffer column z.2.1.2))
      (fun z => .ok ({ z.2.2.1 with gens := z.2.1.1, cons := z.1, lastCol := max column z.2.2.1.lastCol }, Calc.mask z.2.2.1.buffer column z.2.1.2)) := by
    refine Joint.pure' ?_
    rintro k ⟨ca, ⟨ga, ra⟩, sa, ra0⟩ ⟨cb, ⟨gb, rb⟩, sb, rb0⟩ ⟨h1, ⟨h2, h3⟩, h4, h5⟩
    exact ⟨⟨h4.selfJoin, h4.m, h4.nDim, h4.numSeries, h4.numQuery, h4.buffer, by show max _ _ = max _ _; rw [h4.lastCol], h2, h1⟩, by
      show RowsAgree (nd k) (Calc.mask sa.buffer column ra) (Calc.mask sb.buffer column rb)
      rw [h4.buffer]
      exact h3.mask _ _⟩
  have h2 := Joint.stage (Z := fun k => (List (G × Nat) × List (List (Fl K))) × Calc G (D k) × List (List (Fl K)))
      (W := (List (G × Nat) × List (List (Fl K))) × Calc G C × List (List (Fl K))) (fun k z => (z.2.1.cons, Calc.mask z.2.1.buffer column z.1.2))
      (fun w => (w.2.1.cons, Calc.mask w.2.1.buffer column w.1.2))
      (Q := fun k a b => (Agree R (nd k) a.1.1 b.1.1 ∧ RowsAgree (nd k) a.1.2 b.1.2) ∧ Beside e ids nd R k a.2.1 b.2.1 ∧ RowsAgree (nd k) a.2.2 b.2.2)
      (ga := fun k c z => .ok ({ z.2.1 with gens := z.1.1, cons := c, lastCol := max column z.2.1.lastCol }, Calc.mask z.2.1.buffer column z.1.2))
      (gb := fun c z => .ok ({ z.2.1 with gens := z.1.1, cons := c, lastCol := max column z.2.1.lastCol }, Calc.mask z.2.1.buffer column z.1.2))
      (H.delivered (fun k d v => (ops1 k).processColumn d column v) (fun c v => ops.processColumn c column v) (fun k d v => (H.emb k).processColumn d column v))
      (fun k z w h => ⟨h.2.1.cons, by rw [h.2.1.buffer]; exact h.1.2.mask _ _⟩) h3
  have h1 := Joint.stage (Z := fun k => Calc G (D k) × List (List (Fl K))) (W := Calc G C × List (List (Fl K))) (fun k z => (z.1.gens, z.2)) (fun w => (w.1.gens, w.2))
      (Q := fun k a b => Beside e ids nd R k a.1 b.1 ∧ RowsAgree (nd k) a.2 b.2)
      (ga := fun k r z => (z.1.cons.mapM fun c => do
        let vals ← c.2.mapM fun id : Nat => pyGet (Calc.mask z.1.buffer column r.2) (id : Int)
        let c' ← (ops1 k).processColumn c.1 column vals
        return (c', c.2)) >>= fun c => .ok ({ z.1 with gens := r.1, cons := c, lastCol := max column z.1.lastCol }, Calc.mask z.1.buffer column r.2))
      (gb := fun r z => (z.1.cons.mapM fun c => do
        let vals ← c.2.mapM fun id : Nat => pyGet (Calc.mask z.1.buffer column r.2) (id : Int)
        let c' ← ops.processColumn c.1 column vals
        return (c', c.2)) >>= fun c => .ok ({ z.1 with gens := r.1, cons := c, lastCol := max column z.1.lastCol }, Calc.mask z.1.buffer column r.2))
      (H.asked (fun g => ops.calcColumn g column) (fun a b b' v => H.column a b column b' v) maxRow) (fun k z w h => ⟨h.1.gens, h.2⟩) h2
  refine h1.congr ?_ ?_
  · rintro k ⟨st, rows⟩
    show Calc.columnStep (ops1 k) (nd k) maxRow column (st, rows) = _
    unfold Calc.columnStep
    rw [(H.emb k).calcColumn]
    rfl
  · rintro ⟨st, rows⟩
    rfl

theorem Company.columnLoop (H : Company ops1 ops e ids nd needed R) (maxRow : Nat) (ints : Int → Bool) : ∀ (l : Nat) (column : Int),
    Joint (A := fun k => Calc G (D k) × List (List (Fl K))) (B := Calc G C × List (List (Fl K))) (fun k a b => Beside e ids nd R k a.1 b.1 ∧ RowsAgree (nd k) a.2 b.2)
      (A' := fun k => Calc G (D k) × List (List (Fl K))) (B' := Calc G C × List (List (Fl K))) (fun k a b => Beside e ids nd R k a.1 b.1 ∧ RowsAgree (nd k) a.2 b.2)
      (fun k a => Calc.columnLoop (ops1 k) (nd k) maxRow ints l column a) (fun b => Calc.columnLoop ops needed maxRow ints l column b)
  | 0, column => Joint.pure' fun _ _ _ h => h
  | l + 1, column => by
    have := H.nonempty
    by_cases hi : ints column = true
    · refine (Joint.pure' (fa := fun _ a => a) (fb := fun b => b) fun _ _ _ h => h).congr ?_ ?_
      · intro k a
        show (if ints column then _ else _) = _
        rw [if_pos hi]
      · intro b
        show (if ints column then _ else _) = _
        rw [if_pos hi]
    · refine (Joint.bind (H.columnStep maxRow column) (H.columnLoop maxRow ints l (column + 1))).congr ?_ ?_
      · intro k a
        show (if ints column then _ else _) = _
        rw [if_neg hi]
      · intro b
        show (if ints column then _ else _) = _
        rw [if_neg hi]

/-- `calculate_columns` -/
theorem Company.calculateColumns (H : Company ops1 ops e ids nd needed R) (maxCol maxRow : Int) (ints : Int → Bool) (start : Option PyNum) (upto : PyNum) :
    Joint (Beside e ids nd R) (Beside e ids nd R) (fun k a => a.calculateColumns (ops1 k) maxCol maxRow (nd k) ints start upto)
      (fun b => b.calculateColumns ops maxCol maxRow needed ints start upto) := by
  have := H.nonempty
  refine Joint.first (R := Beside e ids nd R) (x := fun k a => ratioToInt (start.getD (.int (a.lastCol + 1))) a.numSeries maxCol) (y := fun b => ratioToInt (start.getD (.int (b.lastCol + 1))) b.numSeries maxCol)
    (fun k a b h => by rw [h.lastCol, h.numSeries]) fun v1 => (Joint.weaken ?_ (fun _ _ _ h => h.1) (fun _ _ _ h => h) : Joint _ (Beside e ids nd R) _ _)
  refine Joint.first (R := Beside e ids nd R) (x := fun k a => ratioToInt upto a.numSeries maxCol) (y := fun b => ratioToInt upto b.numSeries maxCol)
    (fun k a b h => by rw [h.numSeries]) fun v2 => (Joint.weaken ?_ (fun _ _ _ h => h.1) (fun _ _ _ h => h) : Joint _ (Beside e ids nd R) _ _)
  refine Joint.first (R := Beside e ids nd R) (x := fun k a => npFullNan K a.gens.length maxRow) (y := fun b => npFullNan K b.gens.length maxRow)
    (fun k a b h => by rw [h.gens.length]) fun rows => (Joint.weaken ?_ (fun _ _ _ h => h.1) (fun _ _ _ h => h) : Joint _ (Beside e ids nd R) _ _)
  have h1 : Joint (A := fun k => Calc G (D k)) (B := Calc G C) (Beside e ids nd R) (A' := fun k => Calc G (D k) × List (List (Fl K))) (B' := Calc G C × List (List (Fl K)))
      (fun k a b => Beside e ids nd R k a.1 b.1 ∧ RowsAgree (nd k) a.2 b.2) (fun k a => .ok (a, rows)) (fun b => .ok (b, rows)) :=
    Joint.pure' fun k a b h => ⟨h, rfl, fun _ _ => rfl⟩
  have h2 : Joint (A := fun k => Calc G (D k) × List (List (Fl K))) (B := Calc G C × List (List (Fl K))) (fun k a b => Beside e ids nd R k a.1 b.1 ∧ RowsAgree (nd k) a.2 b.2)
      (Beside e ids nd R) (fun k a => .ok a.1) (fun b => .ok b.1) := Joint.pure' fun k a b h => h.1
  have h3 := Joint.bind h1 (Joint.bind (H.columnLoop maxRow.toNat ints (v2 - v1).toNat v1) h2)
  exact h3

/-- The `AnytimeCalculator` number `k` next to the one with all consumers. -/
structure BesideA (e : ∀ k, D k → C) (ids nd : Fin n → List Nat) (R : G → G → Prop) (k : Fin n) (a : Anytime G (D k) K) (b : Anytime G C K) : Prop where
  base : Beside e ids nd R k a.base b.base
  order : a.order = b.order
  total : a.total = b.total
  next : a.next = b.next
  calculated : a.calculated = b.calculated

/-- One diagonal. -/
theorem Company.diagonalStep (H : Company ops1 ops e ids nd needed R) (d : Int) :
    Joint (BesideA e ids nd R) (BesideA (K := K) e ids nd R) (fun k a => Anytime.diagonalStep (ops1 k) (nd k) d a) (fun b => Anytime.diagonalStep ops needed d b) := by
  refine Joint.param (R := BesideA (K := K) e ids nd R) (fun k a => (diagLength a.base.numQuery a.base.numSeries d, a.base.gens.length, a.base.selfJoin))
    (fun b => (diagLength b.base.numQuery b.base.numSeries d, b.base.gens.length, b.base.selfJoin))
    (fun k a b h => by rw [h.base.numQuery, h.base.numSeries, h.base.gens.length, h.base.selfJoin])
    (fa := fun v k st => do
      let (gens, rows) ← Calc.genStep (fun g => (ops1 k).calcDiagonal g d) v.1.toNat (nd k) st.base.gens (List.replicate v.2.1 (List.replicate v.1.toNat Fl.nan))
      let cons ← st.base.cons.mapM fun c => do
        let vals ← c.2.mapM fun id : Nat => pyGet rows (id : Int)
        let c' ← Anytime.deliverDiagonal (ops1 k) v.2.2 d c.1 vals
        return (c', c.2)
      return { st with base := { st.base with gens := gens, cons := cons }, calculated := st.calculated + v.1, next := st.next + 1 })
    (fb := fun v st => do
      let (gens, rows) ← Calc.genStep (fun g => ops.calcDiagonal g d) v.1.toNat needed st.base.gens (List.replicate v.2.1 (List.replicate v.1.toNat Fl.nan))
      let cons ← st.base.cons.mapM fun c => do
        let vals ← c.2.mapM fun id : Nat => pyGet rows (id : Int)
        let c' ← Anytime.deliverDiagonal ops v.2.2 d c.1 vals
        return (c', c.2)
      return { st with base := { st.base with gens := gens, cons := cons }, calculated := st.calculated + v.1, next := st.next + 1 }) ?_
  rintro ⟨len, l, sj⟩
  have h3 : Joint (A := fun k => List (D k × List Nat) × (List (G × Nat) × List (List (Fl K))) × Anytime G (D k) K)
      (B := List (C × List Nat) × (List (G × Nat) × List (List (Fl K))) × Anytime G C K)
      (fun k a b => ConsAt e ids k a.1 b.1 ∧ (Agree R (nd k) a.2.1.1 b.2.1.1 ∧ RowsAgree (nd k) a.2.1.2 b.2.1.2) ∧ BesideA e ids nd R k a.2.2 b.2.2)
      (A' := fun k => Anytime G (D k) K) (B' := Anytime G C K) (BesideA e ids nd R)
      (fun k z => .ok { z.2.2 with base := { z.2.2.base with gens := z.2.1.1, cons := z.1 }, calculated := z.2.2.calculated + len, next := z.2.2.next + 1 })
      (fun z => .ok { z.2.2 with base := { z.2.2.base with gens := z.2.1.1, cons := z.1 }, calculated := z.2.2.calculated + len, next := z.2.2.next + 1 }) := by
    refine Joint.pure' ?_
    rintro k ⟨ca, ⟨ga, ra⟩, sa⟩ ⟨cb, ⟨gb, rb⟩, sb⟩ ⟨h1, ⟨h2, h3⟩, h4⟩
    exact ⟨⟨h4.base.selfJoin, h4.base.m, h4.base.nDim, h4.base.numSeries, h4.base.numQuery, h4.base.buffer, h4.base.lastCol, h2, h1⟩, h4.order, h4.total,
      by show _ + 1 = _ + 1; rw [h4.next], by show _ + len = _ + len; rw [h4.calculated]⟩
  have h2 := Joint.stage (Z := fun k => (List (G × Nat) × List (List (Fl K))) × Anytime G (D k) K)
      (W := (List (G × Nat) × List (List (Fl K))) × Anytime G C K) (fun k z => (z.2.base.cons, z.1.2)) (fun w => (w.2.base.cons, w.1.2))
      (Q := fun k a b => (Agree R (nd k) a.1.1 b.1.1 ∧ RowsAgree (nd k) a.1.2 b.1.2) ∧ BesideA e ids nd R k a.2 b.2)
      (ga := fun k c z => .ok { z.2 with base := { z.2.base with gens := z.1.1, cons := c }, calculated := z.2.calculated + len, next := z.2.next + 1 })
      (gb := fun c z => .ok { z.2 with base := { z.2.base with gens := z.1.1, cons := c }, calculated := z.2.calculated + len, next := z.2.next + 1 })
      (H.delivered (fun k c v => Anytime.deliverDiagonal (ops1 k) sj d c v) (fun c v => Anytime.deliverDiagonal ops sj d c v) (fun k c v => (H.emb k).deliverDiagonal sj d c v))
      (fun k z w h => ⟨h.2.base.cons, h.1.2⟩) h3
  have h1 := Joint.stage (Z := fun k => Anytime G (D k) K) (W := Anytime G C K) (fun k z => (z.base.gens, List.replicate l (List.replicate len.toNat Fl.nan)))
      (fun w => (w.base.gens, List.replicate l (List.replicate len.toNat Fl.nan))) (Q := BesideA e ids nd R)
      (ga := fun k r z => (z.base.cons.mapM fun c => do
        let vals ← c.2.mapM fun id : Nat => pyGet r.2 (id : Int)
        let c' ← Anytime.deliverDiagonal (ops1 k) sj d c.1 vals
        return (c', c.2)) >>= fun c => .ok { z with base := { z.base with gens := r.1, cons := c }, calculated := z.calculated + len, next := z.next + 1 })
      (gb := fun r z => (z.base.cons.mapM fun c => do
        let vals ← c.2.mapM fun id : Nat => pyGet r.2 (id : Int)
        let c' ← Anytime.deliverDiagonal ops sj d c.1 vals
        return (c', c.2)) >>= fun c => .ok { z with base := { z.base with gens := r.1, cons := c }, calculated := z.calculated + len, next := z.next + 1 })
      (H.asked (fun g => ops.calcDiagonal g d) (fun a b b' v => H.diagonal a b d b' v) len.toNat) (fun k z w h => ⟨h.base.gens, rfl, fun _ _ => rfl⟩) h2
  refine h1.congr ?_ ?_
  · intro k st
    rw [(H.emb k).calcDiagonal]
    rfl
  · intro st
    rfl

theorem Company.diagonalLoop (H : Company ops1 ops e ids nd needed R) (ints : Nat → Bool) (v : Int) : ∀ l : List Int,
    Joint (BesideA e ids nd R) (BesideA (K := K) e ids nd R) (fun k a => Anytime.diagonalLoop (ops1 k) (nd k) ints v l a) (fun b => Anytime.diagonalLoop ops needed ints v l b)
  | [] => by
    have := H.nonempty
    exact Joint.ite' (R := BesideA (K := K) e ids nd R) (p := fun _ a => a.calculated < v ∧ ints a.next = false) (q := fun b => b.calculated < v ∧ ints b.next = false)
      (fun k a b h => by rw [h.calculated, h.next]) (Joint.error' _) (Joint.pure' fun _ _ _ h => h.1)
  | d :: l => by
    have := H.nonempty
    exact Joint.ite' (R := BesideA (K := K) e ids nd R) (p := fun _ a => a.calculated < v ∧ ints a.next = false) (q := fun b => b.calculated < v ∧ ints b.next = false)
      (fun k a b h => by rw [h.calculated, h.next])
      (((H.diagonalStep d).bind (H.diagonalLoop ints v l)).weaken (fun _ _ _ h => h.1) (fun _ _ _ h => h)) (Joint.pure' fun _ _ _ h => h.1)

/-- `calculate_diagonals` -/
theorem Company.calculateDiagonals (H : Company ops1 ops e ids nd needed R) (ints : Nat → Bool) (p : PyNum) :
    Joint (BesideA e ids nd R) (BesideA (K := K) e ids nd R) (fun k a => a.calculateDiagonals (ops1 k) (nd k) ints p) (fun b => b.calculateDiagonals ops needed ints p) := by
  have := H.nonempty
  refine Joint.first (R := BesideA (K := K) e ids nd R) (x := fun k a => npFullNan K a.base.gens.length (min a.base.numQuery a.base.numSeries))
    (y := fun b => npFullNan K b.base.gens.length (min b.base.numQuery b.base.numSeries))
    (fun k a b h => by rw [h.base.gens.length, h.base.numQuery, h.base.numSeries])
    fun _ => (Joint.weaken ?_ (fun _ _ _ h => h.1) (fun _ _ _ h => h) : Joint _ (BesideA e ids nd R) _ _)
  refine Joint.first (R := BesideA (K := K) e ids nd R) (x := fun k a => ratioToInt p a.total a.total) (y := fun b => ratioToInt p b.total b.total)
    (fun k a b h => by rw [h.total]) fun v => (Joint.weaken ?_ (fun _ _ _ h => h.1) (fun _ _ _ h => h) : Joint _ (BesideA e ids nd R) _ _)
  exact Joint.param (R := BesideA (K := K) e ids nd R) (fun k a => a.order.drop a.next) (fun b => b.order.drop b.next) (fun k a b h => by rw [h.order, h.next])
    fun l => H.diagonalLoop ints v l

theorem Company.step (H : Company ops1 ops e ids nd needed R) (o : Anytime.Op) :
    Joint (BesideA e ids nd R) (BesideA (K := K) e ids nd R) (fun k a => a.step (ops1 k) (nd k) o) (fun b => b.step ops needed o) := by
  cases o with
  | diagonals ints p => exact H.calculateDiagonals ints p
  | columns ints start upto =>
    refine Joint.param (R := BesideA (K := K) e ids nd R) (fun k a => (a.base.numSeries, a.base.numQuery)) (fun b => (b.base.numSeries, b.base.numQuery))
      (fun k a b h => by rw [h.base.numSeries, h.base.numQuery])
      (fa := fun v k a => a.base.calculateColumns (ops1 k) v.1 v.2 (nd k) ints start upto >>= fun x => .ok { a with base := x })
      (fb := fun v b => b.base.calculateColumns ops v.1 v.2 needed ints start upto >>= fun x => .ok { b with base := x }) fun v => ?_
    exact Joint.stage (Q := BesideA (K := K) e ids nd R) (fun k z => z.base) (fun w => w.base) (H.calculateColumns v.1 v.2 ints start upto) (fun k z w h => h.base)
      (Joint.pure' (S := BesideA (K := K) e ids nd R) fun k z w h => ⟨h.1, h.2.order, h.2.total, h.2.next, h.2.calculated⟩)

theorem Company.run (H : Company ops1 ops e ids nd needed R) : ∀ os : List Anytime.Op,
    Joint (BesideA e ids nd R) (BesideA (K := K) e ids nd R) (fun k a => Anytime.run (ops1 k) (nd k) os a) (fun b => Anytime.run ops needed os b)
  | [] => Joint.pure' fun _ _ _ h => h
  | o :: os => (H.step o).bind (H.run os)

/-- Calculators of the same kind before consumers are added. -/
structure Bare (k : Fin n) (a : Calc G (D k)) (b : Calc G C) : Prop where
  selfJoin : a.selfJoin = b.selfJoin
  m : a.m = b.m
  nDim : a.nDim = b.nDim
  numSeries : a.numSeries = b.numSeries
  numQuery : a.numQuery = b.numQuery
  buffer : a.buffer = b.buffer
  lastCol : a.lastCol = b.lastCol
  gens : a.gens = b.gens
  consA : a.cons = []
  consB : b.cons = []

theorem bare_init [Nonempty (Fin n)] (selfJoin : Bool) (m numSeries numQuery : Int) (nDim : Nat) (buffer : Option Int) :
    Joint (A := fun _ : Fin n => Unit) (B := Unit) (fun _ _ _ => True) (A' := fun k => Calc G (D k)) (B' := Calc G C) Bare (fun _ _ => Calc.init selfJoin m numSeries numQuery nDim buffer)
      (fun _ => Calc.init selfJoin m numSeries numQuery nDim buffer) := by
  unfold Calc.init
  cases selfJoin
  · exact Joint.pure' fun _ _ _ _ => ⟨rfl, rfl, rfl, rfl, rfl, rfl, rfl, rfl, rfl, rfl⟩
  · by_cases h : buffer.getD (m / 2) ∈ pyRange (-1) numSeries
    · refine (Joint.pure' (S := Bare (G := G) (C := C) (D := D)) fun _ _ _ _ => ?_).congr (fun _ _ => by rw [if_pos rfl]; exact if_pos h) (fun _ => by rw [if_pos rfl]; exact if_pos h)
      exact ⟨rfl, rfl, rfl, rfl, rfl, rfl, rfl, rfl, rfl, rfl⟩
    · exact (Joint.error' .runtimeError).congr (fun _ _ => by rw [if_pos rfl]; exact if_neg h) (fun _ => by rw [if_pos rfl]; exact if_neg h)

/-- Consumers being added. -/
theorem Company.added (H : Company ops1 ops e ids nd needed R) (d : ∀ k, D k) :
    Joint (A := fun k => Calc G (D k)) (B := Calc G C) Bare (A' := fun k => Calc G (D k)) (B' := Calc G C) (Beside e ids nd R)
      (fun k a => ([(d k, ids k)].mapM fun c => do return (← (ops1 k).initialise c.1 c.2.length a.numQuery a.numSeries, c.2)) >>= fun cs => .ok { a with cons := cs })
      (fun b => ((List.ofFn fun k => (e k (d k), ids k)).mapM fun c => do return (← ops.initialise c.1 c.2.length b.numQuery b.numSeries, c.2)) >>= fun cs => .ok { b with cons := cs }) := by
  have h1 := each (e := e) (ids := ids) H.pos (X := fun k => Calc G (D k)) (Y := Calc G C) (fun k a b => Bare k a b) (fun k a c l => (ops1 k).initialise c l.length a.numQuery a.numSeries)
    (fun b c l => ops.initialise c l.length b.numQuery b.numSeries) (fun k a b c h => by
      show ops.initialise _ _ _ _ = ((ops1 k).initialise _ _ _ _).map (e k)
      rw [(H.emb k).initialise, h.numQuery, h.numSeries])
  refine (Joint.stage (Q := Bare (G := G) (C := C) (D := D)) (fun k z => ([(d k, ids k)], z)) (fun w => (List.ofFn fun k => (e k (d k), ids k), w)) h1
    (fun k z w h => ⟨⟨List.length_ofFn, d k, rfl, ?_⟩, h⟩) (ga := fun k cs z => .ok { z with cons := cs }) (gb := fun cs z => .ok { z with cons := cs })
    (Joint.pure' (S := Beside e ids nd R) fun k z w h => ⟨h.2.selfJoin, h.2.m, h.2.nDim, h.2.numSeries, h.2.numQuery, h.2.buffer, h.2.lastCol, ?_, h.1⟩)).congr ?_ ?_
  · rw [List.getElem?_ofFn, dif_pos k.2]
  · show Agree R (nd k) z.2.gens w.2.gens
    rw [h.2.gens]
    exact ⟨rfl, fun _ _ => rfl, fun i x y hx hy => by rw [hx] at hy; cases hy; exact ⟨rfl, H.refl _⟩⟩
  · intro k a
    rfl
  · intro b
    rfl

theorem addAllConsumers_eq {C : Type} (ops : Ops G C K) : ∀ (cs : List (C × List Nat)) (st : Anytime G C K),
    Anytime.addAllConsumers ops cs st = (cs.mapM fun c => do return (← ops.initialise c.1 c.2.length st.base.numQuery st.base.numSeries, c.2)) >>= fun cs' =>
      .ok { st with base := { st.base with cons := st.base.cons ++ cs' } }
  | [], st => by
    show Except.ok st = Except.ok _
    rw [List.reverse_nil, List.append_nil]
  | c :: cs, st => by
    rw [List.mapM_cons]
    unfold Anytime.addAllConsumers Anytime.addConsumer Calc.addConsumer
    cases ops.initialise c.1 c.2.length st.base.numQuery st.base.numSeries with
    | error => rfl
    | ok c' =>
      show Anytime.addAllConsumers ops cs _ = _
      rw [addAllConsumers_eq ops cs]
      show List.mapM (m := Except PyErr) (fun c => do return (← ops.initialise c.1 c.2.length st.base.numQuery st.base.numSeries, c.2)) cs >>= _ =
        (List.mapM (m := Except PyErr) (fun c => do return (← ops.initialise c.1 c.2.length st.base.numQuery st.base.numSeries, c.2)) cs >>= fun l => pure ((c', c.2) :: l)) >>= _
      cases List.mapM (m := Except PyErr) (fun c => do return (← ops.initialise c.1 c.2.length st.base.numQuery st.base.numSeries, c.2)) cs with
      | error => rfl
      | ok l =>
        show Except.ok _ = Except.ok _
        simp

theorem streaming_addConsumers_eq {C : Type} (ops : Ops G C K) : ∀ (cs : List (C × List Nat)) (st : Streaming G C),
    Streaming.addConsumers ops cs st = (cs.mapM fun c => do return (← ops.initialise c.1 c.2.length st.base.numQuery st.base.numSeries, c.2)) >>= fun cs' =>
      .ok { st with base := { st.base with cons := st.base.cons ++ cs' } }
  | [], st => by
    show Except.ok st = Except.ok _
    rw [List.reverse_nil, List.append_nil]
  | c :: cs, st => by
    rw [List.mapM_cons]
    unfold Streaming.addConsumers Streaming.addConsumer Calc.addConsumer
    cases ops.initialise c.1 c.2.length st.base.numQuery st.base.numSeries with
    | error => rfl
    | ok c' =>
      show Streaming.addConsumers ops cs _ = _
      rw [streaming_addConsumers_eq ops cs]
      show List.mapM (m := Except PyErr) (fun c => do return (← ops.initialise c.1 c.2.length st.base.numQuery st.base.numSeries, c.2)) cs >>= _ =
        (List.mapM (m := Except PyErr) (fun c => do return (← ops.initialise c.1 c.2.length st.base.numQuery st.base.numSeries, c.2)) cs >>= fun l => pure ((c', c.2) :: l)) >>= _
      cases List.mapM (m := Except PyErr) (fun c => do return (← ops.initialise c.1 c.2.length st.base.numQuery st.base.numSeries, c.2)) cs with
      | error => rfl
      | ok l =>
        show Except.ok _ = Except.ok _
        simp

/-- `AnytimeCalculator`s of the same kind before consumers are added. -/
structure BareA (k : Fin n) (a : Anytime G (D k) K) (b : Anytime G C K) : Prop where
  base : Bare k a.base b.base
  series : a.series = b.series
  query : a.query = b.query
  order : a.order = b.order
  total : a.total = b.total
  next : a.next = b.next
  calculated : a.calculated = b.calculated

theorem bareA_init [Nonempty (Fin n)] (shuffle : List Int → List Int) (m : Int) (series : List (List (Fl K))) (query : Option (List (List (Fl K)))) (buffer : Option Int) :
    Joint (A := fun _ : Fin n => Unit) (B := Unit) (fun _ _ _ => True) (A' := fun k => Anytime G (D k) K) (B' := Anytime G C K) BareA
      (fun _ _ => Anytime.init shuffle m series query buffer) (fun _ => Anytime.init shuffle m series query buffer) := by
  unfold Anytime.init
  refine Joint.ite' (p := fun _ _ => series.length ≠ (query.getD series).length) (q := fun _ => series.length ≠ (query.getD series).length) (fun _ _ _ _ => Iff.rfl) (Joint.error' _) ?_
  refine (Joint.bind (bare_init (G := G) (C := C) (D := D) query.isNone m (Anytime.npCols series - m + 1) (Anytime.npCols (query.getD series) - m + 1) series.length buffer)
    (Joint.pure' (S := BareA (G := G) (C := C) (D := D)) (fa := fun k base => { base := base, series := series, query := query.getD series, order := shuffle (Anytime.diagonals base), total :=
        if base.selfJoin then (base.numSeries - base.buffer - 1) * (base.numSeries - base.buffer - 1 + 1) / 2 else base.numQuery * base.numSeries, next := 0, calculated := 0 })
      (fb := fun base => { base := base, series := series, query := query.getD series, order := shuffle (Anytime.diagonals base), total :=
        if base.selfJoin then (base.numSeries - base.buffer - 1) * (base.numSeries - base.buffer - 1 + 1) / 2 else base.numQuery * base.numSeries, next := 0, calculated := 0 })
      fun k a b h => ⟨h, rfl, rfl, ?_, ?_, rfl, rfl⟩)).weaken (fun _ _ _ _ => trivial) (fun _ _ _ h => h)
  · show shuffle (Anytime.diagonals a) = shuffle (Anytime.diagonals b)
    unfold Anytime.diagonals
    rw [h.selfJoin, h.buffer, h.numSeries, h.numQuery]
  · show (if a.selfJoin then _ else _) = (if b.selfJoin then _ else _)
    rw [h.selfJoin, h.buffer, h.numSeries, h.numQuery]

theorem bareA_addGenerators [Nonempty (Fin n)] : ∀ (gens : List ((Int → List (Fl K) → Option (List (Fl K)) → Except PyErr G) × Nat)),
    Joint (BareA (G := G) (C := C) (D := D) (K := K)) BareA (fun _ a => Anytime.addGenerators gens a) (fun b => Anytime.addGenerators gens b)
  | [] => Joint.pure' fun _ _ _ h => h
  | g :: gens => by
    refine Joint.bind (S := BareA (G := G) (C := C) (D := D) (K := K)) ?_ (bareA_addGenerators gens)
    unfold Anytime.addGenerator
    refine Joint.ite' (R := BareA (G := G) (C := C) (D := D) (K := K)) (p := fun _ a => (g.2 : Int) < 0 ∨ (g.2 : Int) ≥ a.base.nDim) (q := fun b => (g.2 : Int) < 0 ∨ (g.2 : Int) ≥ b.base.nDim)
      (fun k a b h => by rw [h.base.nDim]) (Joint.error' _) (Joint.weaken (R := BareA (G := G) (C := C) (D := D) (K := K)) ?_ (fun _ _ _ h => h.1) (fun _ _ _ h => h))
    refine Joint.first (R := BareA (G := G) (C := C) (D := D) (K := K)) (x := fun k a => pyGet a.series (g.2 : Int)) (y := fun b => pyGet b.series (g.2 : Int)) (fun k a b h => by rw [h.series])
      fun s => Joint.weaken (R := BareA (G := G) (C := C) (D := D) (K := K)) ?_ (fun _ _ _ h => h.1) (fun _ _ _ h => h)
    have push : ∀ g' : G, Joint (BareA (G := G) (C := C) (D := D) (K := K)) (BareA (G := G) (C := C) (D := D) (K := K)) (fun k a => .ok { a with base := { a.base with gens := a.base.gens ++ [(g', (g.2 : Int).toNat)] } })
        (fun b => .ok { b with base := { b.base with gens := b.base.gens ++ [(g', (g.2 : Int).toNat)] } }) := fun g' =>
      Joint.pure' fun k a b h => ⟨⟨h.base.selfJoin, h.base.m, h.base.nDim, h.base.numSeries, h.base.numQuery, h.base.buffer, h.base.lastCol,
        by show _ ++ _ = _ ++ _; rw [h.base.gens], h.base.consA, h.base.consB⟩, h.series, h.query, h.order, h.total, h.next, h.calculated⟩
    refine Joint.ite' (R := BareA (G := G) (C := C) (D := D) (K := K)) (p := fun _ a => a.base.selfJoin = true) (q := fun b => b.base.selfJoin = true) (fun k a b h => by rw [h.base.selfJoin])
      (Joint.weaken (R := BareA (G := G) (C := C) (D := D) (K := K)) ?_ (fun _ _ _ h => h.1) (fun _ _ _ h => h)) (Joint.weaken (R := BareA (G := G) (C := C) (D := D) (K := K)) ?_ (fun _ _ _ h => h.1) (fun _ _ _ h => h))
    · exact Joint.first (R := BareA (G := G) (C := C) (D := D) (K := K)) (x := fun k a => g.1 a.base.m s none) (y := fun b => g.1 b.base.m s none) (fun k a b h => by rw [h.base.m])
        fun g' => (push g').weaken (fun _ _ _ h => h.1) (fun _ _ _ h => h)
    · refine Joint.first (R := BareA (G := G) (C := C) (D := D) (K := K)) (x := fun k a => pyGet a.query (g.2 : Int)) (y := fun b => pyGet b.query (g.2 : Int)) (fun k a b h => by rw [h.query])
        fun q => Joint.weaken (R := BareA (G := G) (C := C) (D := D) (K := K)) ?_ (fun _ _ _ h => h.1) (fun _ _ _ h => h)
      exact Joint.first (R := BareA (G := G) (C := C) (D := D) (K := K)) (x := fun k a => g.1 a.base.m s (some q)) (y := fun b => g.1 b.base.m s (some q)) (fun k a b h => by rw [h.base.m])
        fun g' => (push g').weaken (fun _ _ _ h => h.1) (fun _ _ _ h => h)

/-- An `AnytimeCalculator` with all consumers, and those with one each. -/
theorem Company.batch (H : Company ops1 ops e ids nd needed R) (d : ∀ k, D k) (shuffle : List Int → List Int)
    (gens : List ((Int → List (Fl K) → Option (List (Fl K)) → Except PyErr G) × Nat)) (m : Int) (series : List (List (Fl K))) (query : Option (List (List (Fl K)))) (buffer : Option Int)
    (os : List Anytime.Op) :
    Joint (A := fun _ : Fin n => Unit) (B := Unit) (fun _ _ _ => True) (A' := fun k => List (D k × List Nat)) (B' := List (C × List Nat)) (ConsAt e ids)
      (fun k _ => batchAll (ops1 k) shuffle gens [(d k, ids k)] (nd k) m series query buffer os)
      (fun _ => batchAll ops shuffle gens (List.ofFn fun k => (e k (d k), ids k)) needed m series query buffer os) := by
  have := H.nonempty
  have h3 : Joint (BareA (G := G) (C := C) (D := D) (K := K)) (BesideA (K := K) e ids nd R) (fun k a => Anytime.addAllConsumers (ops1 k) [(d k, ids k)] a)
      (fun b => Anytime.addAllConsumers ops (List.ofFn fun k => (e k (d k), ids k)) b) := by
    have h := Joint.stage (Q := BareA (G := G) (C := C) (D := D) (K := K)) (fun k z => z.base) (fun w => w.base) (H.added d) (fun k z w h => h.base)
      (ga := fun k x z => .ok { z with base := x }) (gb := fun x z => .ok { z with base := x })
      (Joint.pure' (S := BesideA (K := K) e ids nd R) fun k z w h => ⟨h.1, h.2.order, h.2.total, h.2.next, h.2.calculated⟩)
    refine (h.weaken (R' := fun k a b => BareA k a b) (fun _ _ _ h => h) (fun _ _ _ h => h)).congr' ?_ ?_
    · intro k a b hab
      rw [addAllConsumers_eq, hab.base.consA, bind_assoc]
      rfl
    · intro k a b hab
      rw [addAllConsumers_eq, hab.base.consB, bind_assoc]
      rfl
  exact Joint.bind (bareA_init shuffle m series query buffer) (Joint.bind (bareA_addGenerators gens) (Joint.bind h3 (Joint.bind (H.run os) (Joint.pure' fun k a b h => h.base.cons))))

/-- Whether a generator accepts points does not depend on what it was asked for. -/
structure Accepts (append : G → List (Fl K) → Except PyErr G) (R : G → G → Prop) : Prop where
  both : ∀ a b v, R a b → ((∃ a', append a v = .ok a') ↔ ∃ b', append b v = .ok b')
  stay : ∀ a b v a' b', R a b → append a v = .ok a' → append b v = .ok b' → R a' b'

/-- Points given to all generators. -/
theorem Company.appended (H : Company ops1 ops e ids nd needed R) {append : G → List (Fl K) → Except PyErr G} (ha : Accepts append R) (rows : List (List (Fl K))) :
    Joint (A := fun _ : Fin n => List (G × Nat)) (B := List (G × Nat)) (fun k a b => Agree R (nd k) a b) (A' := fun _ : Fin n => List (G × Nat)) (B' := List (G × Nat))
      (fun k a b => Agree R (nd k) a b) (fun _ a => Streaming.appendGens append rows a) (fun b => Streaming.appendGens append rows b) where
  fwd := by
    intro k a b b' hr hb
    obtain ⟨l1, l2⟩ := (forall₂_iff_getElem? _ _ _).mp ((mapM_ok_iff _ _ _).mp hb)
    have look : ∀ (i : Nat) y y', b[i]? = some y → b'[i]? = some y' → ∃ v, pyGet rows (y.2 : Int) = .ok v ∧ append y.1 v = .ok y'.1 ∧ y'.2 = y.2 := by
      intro i y y' h1 h2
      obtain ⟨v, e1, e2⟩ := bind_ok_iff.mp (l2 i y y' h1 h2)
      obtain ⟨g', e3, e4⟩ := bind_ok_iff.mp e2
      cases e4
      exact ⟨v, e1, e3, rfl⟩
    have there : ∀ (i : Nat) x, a[i]? = some x → ∃ y y', b[i]? = some y ∧ b'[i]? = some y' := by
      intro i x hx
      obtain ⟨hi, -⟩ := List.getElem?_eq_some_iff.mp hx
      have hb1 : i < b.length := hr.length ▸ hi
      have hb2 : i < b'.length := by rw [l1]; exact hb1
      exact ⟨_, _, List.getElem?_eq_getElem hb1, List.getElem?_eq_getElem hb2⟩
    obtain ⟨a', ha'⟩ := mapM_exists (fun g : G × Nat => do
      let v ← pyGet rows (g.2 : Int)
      let g' ← append g.1 v
      return (g', g.2)) a (by
        intro x hx
        obtain ⟨i, hi⟩ := List.mem_iff_getElem?.mp hx
        obtain ⟨y, y', h1, h2⟩ := there i x hi
        obtain ⟨v, e1, e2, -⟩ := look i y y' h1 h2
        obtain ⟨q1, q2⟩ := hr.near i x y hi h1
        obtain ⟨x', e3⟩ := (ha.both x.1 y.1 v q2).mpr ⟨_, e2⟩
        exact ⟨(x', x.2), bind_ok_iff.mpr ⟨v, by rw [q1]; exact e1, bind_ok_iff.mpr ⟨x', e3, rfl⟩⟩⟩)
    obtain ⟨m1, m2⟩ := (forall₂_iff_getElem? _ _ _).mp ((mapM_ok_iff _ _ _).mp ha')
    have look' : ∀ (i : Nat) y y', a[i]? = some y → a'[i]? = some y' → ∃ v, pyGet rows (y.2 : Int) = .ok v ∧ append y.1 v = .ok y'.1 ∧ y'.2 = y.2 := by
      intro i y y' h1 h2
      obtain ⟨v, e1, e2⟩ := bind_ok_iff.mp (m2 i y y' h1 h2)
      obtain ⟨g', e3, e4⟩ := bind_ok_iff.mp e2
      cases e4
      exact ⟨v, e1, e3, rfl⟩
    have old : ∀ (i : Nat) x', a'[i]? = some x' → ∃ x, a[i]? = some x := by
      intro i x' hx
      obtain ⟨hi, -⟩ := List.getElem?_eq_some_iff.mp hx
      exact ⟨_, List.getElem?_eq_getElem (m1 ▸ hi)⟩
    have hlen : a'.length = b'.length := by rw [m1, l1, hr.length]
    refine ⟨a', ha', hlen, ?_, ?_⟩
    · intro id hid
      by_cases hlt : id < a'.length
      · obtain ⟨x, hx⟩ := old id _ (List.getElem?_eq_getElem hlt)
        obtain ⟨y, y', h1, h2⟩ := there id x hx
        have hxy := hr.same id hid
        rw [hx, h1] at hxy
        cases hxy
        obtain ⟨v, e1, e2, e3⟩ := look' id x _ hx (List.getElem?_eq_getElem hlt)
        obtain ⟨v', f1, f2, f3⟩ := look id x y' h1 h2
        rw [e1] at f1
        cases f1
        rw [e2] at f2
        rw [List.getElem?_eq_getElem hlt, h2]
        exact congrArg some (Prod.ext (Except.ok.inj f2) (e3.trans f3.symm))
      · rw [List.getElem?_eq_none (by omega), List.getElem?_eq_none (by omega)]
    · intro i x' y' hx' hy'
      obtain ⟨x, hx⟩ := old i x' hx'
      obtain ⟨y, y2, h1, h2⟩ := there i x hx
      rw [hy'] at h2
      cases h2
      obtain ⟨v, e1, e2, e3⟩ := look' i x x' hx hx'
      obtain ⟨v', f1, f2, f3⟩ := look i y y' h1 hy'
      obtain ⟨q1, q2⟩ := hr.near i x y hx h1
      rw [q1, f1] at e1
      cases e1
      exact ⟨by rw [e3, f3, q1], ha.stay _ _ _ _ _ q2 e2 f2⟩
  bwd := by
    intro b as hr h1
    obtain ⟨k0⟩ := H.nonempty
    have hr := hr k0
    obtain ⟨a', e1⟩ := h1 k0
    refine mapM_exists _ b ?_
    intro y hy
    obtain ⟨i, hi⟩ := List.mem_iff_getElem?.mp hy
    obtain ⟨m1, m2⟩ := (forall₂_iff_getElem? _ _ _).mp ((mapM_ok_iff _ _ _).mp e1)
    obtain ⟨hlt, -⟩ := List.getElem?_eq_some_iff.mp hi
    have hlt1 : i < (as k0).length := by rw [hr.length]; exact hlt
    have hlt2 : i < a'.length := by rw [m1]; exact hlt1
    have hx := List.getElem?_eq_getElem hlt1
    obtain ⟨q1, q2⟩ := hr.near i _ y hx hi
    obtain ⟨v, e2, e3⟩ := bind_ok_iff.mp (m2 i _ _ hx (List.getElem?_eq_getElem hlt2))
    obtain ⟨x', e4, -⟩ := bind_ok_iff.mp e3
    obtain ⟨y', e5⟩ := (ha.both _ _ v q2).mp ⟨x', e4⟩
    exact ⟨(y', y.2), bind_ok_iff.mpr ⟨v, by rw [← q1]; exact e2, bind_ok_iff.mpr ⟨y', e5, rfl⟩⟩⟩

/-- Consumers being told that a window moves. -/
theorem Company.shifted (H : Company ops1 ops e ids nd needed R) (f1 : ∀ k, D k → Except PyErr (D k)) (f : C → Except PyErr C) (hf : ∀ k d, f (e k d) = (f1 k d).map (e k)) :
    Joint (ConsAt e ids) (ConsAt e ids) (fun k a => Streaming.shiftCons (f1 k) a) (fun b => Streaming.shiftCons f b) :=
  Joint.bind (S := fun k a b => ConsAt e ids k a.1 b.1 ∧ True) (Joint.pure' (fa := fun _ a => (a, ())) (fb := fun b => (b, ())) fun _ _ _ h => ⟨h, trivial⟩)
    (each (e := e) (ids := ids) H.pos (X := fun _ => Unit) (Y := Unit) (fun _ _ _ => True) (fun k _ d _ => f1 k d) (fun _ c _ => f c) fun k _ _ d _ => hf k d)

theorem Company.shiftedBoth (H : Company ops1 ops e ids nd needed R) (selfJoin : Bool) (shift : Int) :
    Joint (ConsAt e ids) (ConsAt e ids) (fun k a => Streaming.shiftBoth (ops1 k) selfJoin shift a) (fun b => Streaming.shiftBoth ops selfJoin shift b) := by
  refine Joint.bind (H.shifted (fun k d => (ops1 k).shiftSeries d shift) (fun c => ops.shiftSeries c shift) fun k d => (H.emb k).shiftSeries d shift) ?_
  cases selfJoin
  · exact Joint.pure' fun _ _ _ h => h
  · exact H.shifted (fun k d => (ops1 k).shiftQuery d shift) (fun c => ops.shiftQuery c shift) fun k d => (H.emb k).shiftQuery d shift

/-- The `StreamingCalculator` number `k` next to the one with all consumers. -/
structure BesideS (e : ∀ k, D k → C) (ids nd : Fin n → List Nat) (R : G → G → Prop) (k : Fin n) (a : Streaming G (D k)) (b : Streaming G C) : Prop where
  base : Beside e ids nd R k a.base b.base
  streamedSeries : a.streamedSeries = b.streamedSeries
  streamedQuery : a.streamedQuery = b.streamedQuery

theorem Beside.withGens {k : Fin n} {a : Calc G (D k)} {b : Calc G C} (h : Beside e ids nd R k a b) {ga gb : List (G × Nat)} (hg : Agree R (nd k) ga gb) :
    Beside e ids nd R k { a with gens := ga } { b with gens := gb } :=
  ⟨h.selfJoin, h.m, h.nDim, h.numSeries, h.numQuery, h.buffer, h.lastCol, hg, h.cons⟩

theorem Beside.withCons {k : Fin n} {a : Calc G (D k)} {b : Calc G C} (h : Beside e ids nd R k a b) {ca : List (D k × List Nat)} {cb : List (C × List Nat)} (hc : ConsAt e ids k ca cb) :
    Beside e ids nd R k { a with cons := ca } { b with cons := cb } :=
  ⟨h.selfJoin, h.m, h.nDim, h.numSeries, h.numQuery, h.buffer, h.lastCol, h.gens, hc⟩

theorem Beside.withLast {k : Fin n} {a : Calc G (D k)} {b : Calc G C} (h : Beside e ids nd R k a b) {l l' : Int} (hl : l = l') :
    Beside e ids nd R k { a with lastCol := l } { b with lastCol := l' } :=
  ⟨h.selfJoin, h.m, h.nDim, h.numSeries, h.numQuery, h.buffer, hl, h.gens, h.cons⟩

/-- `append_series` -/
theorem Company.appendSeries (H : Company ops1 ops e ids nd needed R) (ha : Accepts ops.appendSeries R) (values : NDArray K) :
    Joint (BesideS e ids nd R) (BesideS e ids nd R) (fun k a => a.appendSeries (ops1 k) values) (fun b => b.appendSeries ops values) := by
  have := H.nonempty
  refine Joint.congr (fa := fun k (a : Streaming G (D k)) => Streaming.toRows a.base.nDim values >>= fun r => Streaming.appendGens ops.appendSeries r.1 a.base.gens >>= fun gens =>
      if Streaming.shiftOf (a.base.numSeries + a.base.m - 1) a.streamedSeries r.2 ≠ 0 then
        Streaming.shiftBoth (ops1 k) a.base.selfJoin (Streaming.shiftOf (a.base.numSeries + a.base.m - 1) a.streamedSeries r.2) a.base.cons >>= fun cons =>
          .ok { a with base := { a.base with gens := gens, cons := cons, lastCol := max (-1) (a.base.lastCol - Streaming.shiftOf (a.base.numSeries + a.base.m - 1) a.streamedSeries r.2) },
                       streamedSeries := a.streamedSeries + r.2 }
      else .ok { a with base := { a.base with gens := gens }, streamedSeries := a.streamedSeries + r.2 })
    (fb := fun (a : Streaming G C) => Streaming.toRows a.base.nDim values >>= fun r => Streaming.appendGens ops.appendSeries r.1 a.base.gens >>= fun gens =>
      if Streaming.shiftOf (a.base.numSeries + a.base.m - 1) a.streamedSeries r.2 ≠ 0 then
        Streaming.shiftBoth ops a.base.selfJoin (Streaming.shiftOf (a.base.numSeries + a.base.m - 1) a.streamedSeries r.2) a.base.cons >>= fun cons =>
          .ok { a with base := { a.base with gens := gens, cons := cons, lastCol := max (-1) (a.base.lastCol - Streaming.shiftOf (a.base.numSeries + a.base.m - 1) a.streamedSeries r.2) },
                       streamedSeries := a.streamedSeries + r.2 }
      else .ok { a with base := { a.base with gens := gens }, streamedSeries := a.streamedSeries + r.2 })
    ?_ (fun k a => by unfold Streaming.appendSeries; rw [(H.emb k).appendSeries]; rfl) (fun b => rfl)
  refine Joint.first (R := BesideS e ids nd R) (x := fun k a => Streaming.toRows a.base.nDim values) (y := fun b => Streaming.toRows b.base.nDim values)
    (fun k a b h => by rw [h.base.nDim]) fun r => Joint.weaken (R := BesideS e ids nd R) ?_ (fun _ _ _ h => h.1) (fun _ _ _ h => h)
  refine Joint.stage (Q := BesideS e ids nd R) (fun k z => z.base.gens) (fun w => w.base.gens) (H.appended ha r.1) (fun k z w h => h.base.gens) ?_
  refine Joint.param (R := fun k (a : List (G × Nat) × Streaming G (D k)) (b : List (G × Nat) × Streaming G C) => Agree R (nd k) a.1 b.1 ∧ BesideS e ids nd R k a.2 b.2)
    (fun k a => (Streaming.shiftOf (a.2.base.numSeries + a.2.base.m - 1) a.2.streamedSeries r.2, a.2.base.selfJoin))
    (fun b => (Streaming.shiftOf (b.2.base.numSeries + b.2.base.m - 1) b.2.streamedSeries r.2, b.2.base.selfJoin))
    (fun k a b h => by rw [h.2.base.numSeries, h.2.base.m, h.2.streamedSeries, h.2.base.selfJoin])
    (fa := fun v k z => if v.1 ≠ 0 then
        Streaming.shiftBoth (ops1 k) v.2 v.1 z.2.base.cons >>= fun cons =>
          .ok { z.2 with base := { z.2.base with gens := z.1, cons := cons, lastCol := max (-1) (z.2.base.lastCol - v.1) }, streamedSeries := z.2.streamedSeries + r.2 }
      else .ok { z.2 with base := { z.2.base with gens := z.1 }, streamedSeries := z.2.streamedSeries + r.2 })
    (fb := fun v z => if v.1 ≠ 0 then
        Streaming.shiftBoth ops v.2 v.1 z.2.base.cons >>= fun cons =>
          .ok { z.2 with base := { z.2.base with gens := z.1, cons := cons, lastCol := max (-1) (z.2.base.lastCol - v.1) }, streamedSeries := z.2.streamedSeries + r.2 }
      else .ok { z.2 with base := { z.2.base with gens := z.1 }, streamedSeries := z.2.streamedSeries + r.2 }) fun v => ?_
  refine Joint.ite' (p := fun _ _ => v.1 ≠ 0) (q := fun _ => v.1 ≠ 0) (fun _ _ _ _ => Iff.rfl) (Joint.weaken ?_ (fun _ _ _ h => h.1) (fun _ _ _ h => h))
    (Joint.weaken ?_ (fun _ _ _ h => h.1) (fun _ _ _ h => h))
  · refine Joint.stage (Q := fun k (a : List (G × Nat) × Streaming G (D k)) (b : List (G × Nat) × Streaming G C) => Agree R (nd k) a.1 b.1 ∧ BesideS e ids nd R k a.2 b.2)
      (fun k z => z.2.base.cons) (fun w => w.2.base.cons) (H.shiftedBoth v.2 v.1) (fun k z w h => h.2.base.cons)
      (Joint.pure' (S := BesideS e ids nd R) fun k z w h => ?_)
    exact ⟨((h.2.2.base.withGens h.2.1).withCons h.1).withLast (by rw [h.2.2.base.lastCol]), by show _ + _ = _ + _; rw [h.2.2.streamedSeries], h.2.2.streamedQuery⟩
  · refine Joint.pure' fun k z w h => ?_
    exact ⟨h.2.base.withGens h.1, by show _ + _ = _ + _; rw [h.2.streamedSeries], h.2.streamedQuery⟩

/-- `append_query` -/
theorem Company.appendQuery (H : Company ops1 ops e ids nd needed R) (ha : Accepts ops.appendQuery R) (values : NDArray K) :
    Joint (BesideS e ids nd R) (BesideS e ids nd R) (fun k a => a.appendQuery (ops1 k) values) (fun b => b.appendQuery ops values) := by
  have := H.nonempty
  refine Joint.congr (fa := fun k (a : Streaming G (D k)) => if a.base.selfJoin = true then .error .runtimeError else
      Streaming.toRows a.base.nDim values >>= fun r => Streaming.appendGens ops.appendQuery r.1 a.base.gens >>= fun gens =>
      if Streaming.shiftOf (a.base.numQuery + a.base.m - 1) a.streamedQuery r.2 ≠ 0 then
        Streaming.shiftCons (fun c => (ops1 k).shiftQuery c (Streaming.shiftOf (a.base.numQuery + a.base.m - 1) a.streamedQuery r.2)) a.base.cons >>= fun cons =>
          .ok { a with base := { a.base with gens := gens, cons := cons }, streamedQuery := a.streamedQuery + r.2 }
      else .ok { a with base := { a.base with gens := gens }, streamedQuery := a.streamedQuery + r.2 })
    (fb := fun (a : Streaming G C) => if a.base.selfJoin = true then .error .runtimeError else
      Streaming.toRows a.base.nDim values >>= fun r => Streaming.appendGens ops.appendQuery r.1 a.base.gens >>= fun gens =>
      if Streaming.shiftOf (a.base.numQuery + a.base.m - 1) a.streamedQuery r.2 ≠ 0 then
        Streaming.shiftCons (fun c => ops.shiftQuery c (Streaming.shiftOf (a.base.numQuery + a.base.m - 1) a.streamedQuery r.2)) a.base.cons >>= fun cons =>
          .ok { a with base := { a.base with gens := gens, cons := cons }, streamedQuery := a.streamedQuery + r.2 }
      else .ok { a with base := { a.base with gens := gens }, streamedQuery := a.streamedQuery + r.2 })
    ?_ (fun k a => by unfold Streaming.appendQuery; rw [(H.emb k).appendQuery]; rfl) (fun b => rfl)
  refine Joint.ite' (R := BesideS e ids nd R) (p := fun _ a => a.base.selfJoin = true) (q := fun b => b.base.selfJoin = true) (fun k a b h => by rw [h.base.selfJoin]) (Joint.error' _)
    (Joint.weaken (R := BesideS e ids nd R) ?_ (fun _ _ _ h => h.1) (fun _ _ _ h => h))
  refine Joint.first (R := BesideS e ids nd R) (x := fun k a => Streaming.toRows a.base.nDim values) (y := fun b => Streaming.toRows b.base.nDim values)
    (fun k a b h => by rw [h.base.nDim]) fun r => Joint.weaken (R := BesideS e ids nd R) ?_ (fun _ _ _ h => h.1) (fun _ _ _ h => h)
  refine Joint.stage (Q := BesideS e ids nd R) (fun k z => z.base.gens) (fun w => w.base.gens) (H.appended ha r.1) (fun k z w h => h.base.gens) ?_
  refine Joint.param (R := fun k (a : List (G × Nat) × Streaming G (D k)) (b : List (G × Nat) × Streaming G C) => Agree R (nd k) a.1 b.1 ∧ BesideS e ids nd R k a.2 b.2)
    (fun k a => Streaming.shiftOf (a.2.base.numQuery + a.2.base.m - 1) a.2.streamedQuery r.2)
    (fun b => Streaming.shiftOf (b.2.base.numQuery + b.2.base.m - 1) b.2.streamedQuery r.2)
    (fun k a b h => by rw [h.2.base.numQuery, h.2.base.m, h.2.streamedQuery])
    (fa := fun v k z => if v ≠ 0 then
        Streaming.shiftCons (fun c => (ops1 k).shiftQuery c v) z.2.base.cons >>= fun cons =>
          .ok { z.2 with base := { z.2.base with gens := z.1, cons := cons }, streamedQuery := z.2.streamedQuery + r.2 }
      else .ok { z.2 with base := { z.2.base with gens := z.1 }, streamedQuery := z.2.streamedQuery + r.2 })
    (fb := fun v z => if v ≠ 0 then
        Streaming.shiftCons (fun c => ops.shiftQuery c v) z.2.base.cons >>= fun cons =>
          .ok { z.2 with base := { z.2.base with gens := z.1, cons := cons }, streamedQuery := z.2.streamedQuery + r.2 }
      else .ok { z.2 with base := { z.2.base with gens := z.1 }, streamedQuery := z.2.streamedQuery + r.2 }) fun v => ?_
  refine Joint.ite' (p := fun _ _ => v ≠ 0) (q := fun _ => v ≠ 0) (fun _ _ _ _ => Iff.rfl) (Joint.weaken ?_ (fun _ _ _ h => h.1) (fun _ _ _ h => h))
    (Joint.weaken ?_ (fun _ _ _ h => h.1) (fun _ _ _ h => h))
  · refine Joint.stage (Q := fun k (a : List (G × Nat) × Streaming G (D k)) (b : List (G × Nat) × Streaming G C) => Agree R (nd k) a.1 b.1 ∧ BesideS e ids nd R k a.2 b.2)
      (fun k z => z.2.base.cons) (fun w => w.2.base.cons)
      (H.shifted (fun k d => (ops1 k).shiftQuery d v) (fun c => ops.shiftQuery c v) fun k d => (H.emb k).shiftQuery d v) (fun k z w h => h.2.base.cons)
      (Joint.pure' (S := BesideS e ids nd R) fun k z w h => ?_)
    exact ⟨(h.2.2.base.withGens h.2.1).withCons h.1, h.2.2.streamedSeries, by show _ + _ = _ + _; rw [h.2.2.streamedQuery]⟩
  · refine Joint.pure' fun k z w h => ?_
    exact ⟨h.2.base.withGens h.1, h.2.streamedSeries, by show _ + _ = _ + _; rw [h.2.streamedQuery]⟩

theorem Company.stepS (H : Company ops1 ops e ids nd needed R) (hs : Accepts ops.appendSeries R) (hq : Accepts ops.appendQuery R) (o : Streaming.Op K) :
    Joint (BesideS e ids nd R) (BesideS e ids nd R) (fun k a => a.step (ops1 k) (nd k) o) (fun b => b.step ops needed o) := by
  cases o with
  | series v => exact H.appendSeries hs v
  | query v => exact H.appendQuery hq v
  | columns ints upto =>
    have hc : ∀ k (a : Streaming G (D k)) (b : Streaming G C), BesideS e ids nd R k a b → (a.maxColumn, a.maxRow) = (b.maxColumn, b.maxRow) := fun k a b h => by
      have h1 : a.maxColumn = b.maxColumn := by
        unfold Streaming.maxColumn
        rw [h.base.numSeries, h.base.m, h.streamedSeries]
      unfold Streaming.maxRow
      rw [h1, h.base.selfJoin, h.base.m, h.base.numQuery, h.streamedQuery]
    refine Joint.param (R := BesideS e ids nd R) (fun k a => (a.maxColumn, a.maxRow)) (fun b => (b.maxColumn, b.maxRow)) hc
      (fa := fun v k a => a.base.calculateColumns (ops1 k) v.1 v.2 (nd k) ints none upto >>= fun x => .ok { a with base := x })
      (fb := fun v b => b.base.calculateColumns ops v.1 v.2 needed ints none upto >>= fun x => .ok { b with base := x }) fun v => ?_
    exact Joint.stage (Q := BesideS e ids nd R) (fun k z => z.base) (fun w => w.base) (H.calculateColumns v.1 v.2 ints none upto) (fun k z w h => h.base)
      (Joint.pure' (S := BesideS e ids nd R) fun k z w h => ⟨h.1, h.2.streamedSeries, h.2.streamedQuery⟩)

theorem Company.runS (H : Company ops1 ops e ids nd needed R) (hs : Accepts ops.appendSeries R) (hq : Accepts ops.appendQuery R) : ∀ os : List (Streaming.Op K),
    Joint (BesideS e ids nd R) (BesideS e ids nd R) (fun k a => Streaming.run (ops1 k) (nd k) os a) (fun b => Streaming.run ops needed os b)
  | [] => Joint.pure' fun _ _ _ h => h
  | o :: os => (H.stepS hs hq o).bind (H.runS hs hq os)

/-- `StreamingCalculator`s of the same kind before consumers are added. -/
structure BareS (k : Fin n) (a : Streaming G (D k)) (b : Streaming G C) : Prop where
  base : Bare k a.base b.base
  streamedSeries : a.streamedSeries = b.streamedSeries
  streamedQuery : a.streamedQuery = b.streamedQuery

theorem bareS_init [Nonempty (Fin n)] (m seriesWindow : Int) (queryWindow : Option Int) (nDim : Nat) (buffer : Option Int) :
    Joint (A := fun _ : Fin n => Unit) (B := Unit) (fun _ _ _ => True) (A' := fun k => Streaming G (D k)) (B' := Streaming G C) BareS
      (fun _ _ => Streaming.init m seriesWindow queryWindow nDim buffer) (fun _ => Streaming.init m seriesWindow queryWindow nDim buffer) := by
  cases queryWindow with
  | none => exact Joint.bind (bare_init true m _ _ nDim buffer) (Joint.pure' fun k a b h => ⟨h, rfl, rfl⟩)
  | some q => exact Joint.bind (bare_init false m _ _ nDim buffer) (Joint.pure' fun k a b h => ⟨h, rfl, rfl⟩)

theorem bareS_addGenerators [Nonempty (Fin n)] : ∀ (gens : List ((Int → Int → Option Int → Except PyErr G) × Nat)),
    Joint (BareS (G := G) (C := C) (D := D)) BareS (fun _ a => Streaming.addGenerators gens a) (fun b => Streaming.addGenerators gens b)
  | [] => Joint.pure' fun _ _ _ h => h
  | g :: gens => by
    refine Joint.bind (S := BareS (G := G) (C := C) (D := D)) ?_ (bareS_addGenerators gens)
    unfold Streaming.addGenerator
    refine Joint.ite' (R := BareS (G := G) (C := C) (D := D)) (p := fun _ a => (g.2 : Int) < 0 ∨ (g.2 : Int) ≥ a.base.nDim) (q := fun b => (g.2 : Int) < 0 ∨ (g.2 : Int) ≥ b.base.nDim)
      (fun k a b h => by rw [h.base.nDim]) (Joint.error' _) (Joint.weaken (R := BareS (G := G) (C := C) (D := D)) ?_ (fun _ _ _ h => h.1) (fun _ _ _ h => h))
    refine Joint.first (R := BareS (G := G) (C := C) (D := D))
      (x := fun k a => g.1 a.base.m (a.base.numSeries + a.base.m - 1) (if a.base.selfJoin then none else some (a.base.numQuery + a.base.m - 1)))
      (y := fun b => g.1 b.base.m (b.base.numSeries + b.base.m - 1) (if b.base.selfJoin then none else some (b.base.numQuery + b.base.m - 1)))
      (fun k a b h => by rw [h.base.m, h.base.numSeries, h.base.selfJoin, h.base.numQuery]) fun g' => Joint.weaken (R := BareS (G := G) (C := C) (D := D)) ?_ (fun _ _ _ h => h.1) (fun _ _ _ h => h)
    exact Joint.pure' fun k a b h => ⟨⟨h.base.selfJoin, h.base.m, h.base.nDim, h.base.numSeries, h.base.numQuery, h.base.buffer, h.base.lastCol,
      by show _ ++ _ = _ ++ _; rw [h.base.gens], h.base.consA, h.base.consB⟩, h.streamedSeries, h.streamedQuery⟩

/-- A `StreamingCalculator` with all consumers, and those with one each. -/
theorem Company.stream (H : Company ops1 ops e ids nd needed R) (hs : Accepts ops.appendSeries R) (hq : Accepts ops.appendQuery R) (d : ∀ k, D k)
    (gens : List ((Int → Int → Option Int → Except PyErr G) × Nat)) (m seriesWindow : Int) (queryWindow : Option Int) (nDim : Nat) (buffer : Option Int) (os : List (Streaming.Op K)) :
    Joint (A := fun _ : Fin n => Unit) (B := Unit) (fun _ _ _ => True) (A' := fun k => List (D k × List Nat)) (B' := List (C × List Nat)) (ConsAt e ids)
      (fun k _ => streamAll (ops1 k) gens [(d k, ids k)] (nd k) m seriesWindow queryWindow nDim buffer os)
      (fun _ => streamAll ops gens (List.ofFn fun k => (e k (d k), ids k)) needed m seriesWindow queryWindow nDim buffer os) := by
  have := H.nonempty
  have h3 : Joint (BareS (G := G) (C := C) (D := D)) (BesideS e ids nd R) (fun k a => Streaming.addConsumers (ops1 k) [(d k, ids k)] a)
      (fun b => Streaming.addConsumers ops (List.ofFn fun k => (e k (d k), ids k)) b) := by
    have h := Joint.stage (Q := BareS (G := G) (C := C) (D := D)) (fun k z => z.base) (fun w => w.base) (H.added d) (fun k z w h => h.base)
      (ga := fun k x z => .ok { z with base := x }) (gb := fun x z => .ok { z with base := x })
      (Joint.pure' (S := BesideS e ids nd R) fun k z w h => ⟨h.1, h.2.streamedSeries, h.2.streamedQuery⟩)
    refine h.congr' ?_ ?_
    · intro k a b hab
      rw [streaming_addConsumers_eq, hab.base.consA, bind_assoc]
      rfl
    · intro k a b hab
      rw [streaming_addConsumers_eq, hab.base.consB, bind_assoc]
      rfl
  exact Joint.bind (bareS_init m seriesWindow queryWindow nDim buffer) (Joint.bind (bareS_addGenerators gens)
    (Joint.bind h3 (Joint.bind (H.runS hs hq os) (Joint.pure' fun k a b h => h.base.cons))))

/-- What a `Joint` construction says about the results. -/
theorem Joint.result (pos : 0 < n) {fa : ∀ k, Except PyErr (List (D k × List Nat))} {fb : Except PyErr (List (C × List Nat))}
    (h : Joint (A := fun _ : Fin n => Unit) (B := Unit) (fun _ _ _ => True) (A' := fun k => List (D k × List Nat)) (B' := List (C × List Nat)) (ConsAt e ids) (fun k _ => fa k) (fun _ => fb))
    (cons' : List (C × List Nat)) :
    fb = .ok cons' ↔ ∃ d' : ∀ k, D k, (∀ k, fa k = .ok [(d' k, ids k)]) ∧ cons' = List.ofFn fun k => (e k (d' k), ids k) := by
  have main : ∀ cs, fb = .ok cs → ∃ d' : ∀ k, D k, (∀ k, fa k = .ok [(d' k, ids k)]) ∧ cs = List.ofFn fun k => (e k (d' k), ids k) := by
    intro cs hb
    have hx : ∀ k, ∃ d, fa k = .ok [(d, ids k)] ∧ cs[k.1]? = some (e k d, ids k) := fun k => by
      obtain ⟨a', e1, -, d, rfl, e3⟩ := h.fwd k () () cs trivial hb
      exact ⟨d, e1, e3⟩
    have hlen : cs.length = n := by
      obtain ⟨a', -, e2, -⟩ := h.fwd ⟨0, pos⟩ () () cs trivial hb
      exact e2
    choose d' h1 h2 using hx
    refine ⟨d', h1, List.ext_getElem? fun i => ?_⟩
    rw [List.getElem?_ofFn]
    by_cases hi : i < n
    · rw [dif_pos hi]
      exact h2 ⟨i, hi⟩
    · rw [dif_neg hi]
      exact List.getElem?_eq_none (by omega)
  constructor
  · exact main cons'
  · rintro ⟨d', h1, rfl⟩
    obtain ⟨cs, hcs⟩ := h.bwd () (fun _ => ()) (fun _ => trivial) fun k => ⟨_, h1 k⟩
    obtain ⟨d2, h2, rfl⟩ := main cs hcs
    have : d2 = d' := funext fun k => by
      have := h1 k
      rw [h2 k] at this
      injection this with this
      injection this with this
      injection this
    rw [hcs, this]

end
end Verif
