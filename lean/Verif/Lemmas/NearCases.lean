import Verif.Props.NearFeed

/-!
Whole calculations on any data, and the transfer of what a single consumer does to all consumers of a calculation.
-/

namespace Verif
open Spec
variable {α C K : Type}

/-- The same call, or the same column with values that are equal or related. -/
def NearEvent (Rel : Nat → Fl K → Fl K → Prop) (ids : List Nat) (e e' : CEvent K) : Prop :=
  e' = e ∨ ∃ (c : Int) (F F' : Nat → List (Fl K)), e = .column c (ids.map F) ∧ e' = .column c (ids.map F') ∧
    ∀ id ∈ ids, List.Forall₂ (fun a b => b = a ∨ Rel id a b) (F id) (F' id)

theorem NearEvent.refl_list (Rel : Nat → Fl K → Fl K → Prop) (ids : List Nat) (es : List (CEvent K)) : List.Forall₂ (NearEvent Rel ids) es es :=
  List.forall₂_same.mpr fun _ _ => .inl rfl

theorem nearEvent_columns {Rel : Nat → Fl K → Fl K → Prop} {ids : List Nat} {V V' : Table K} {b : Int} {h : Nat} {l : List Nat}
    (hR : ∀ id ∈ ids, ∀ c ∈ l, ∀ r < h, ¬ ((r : Int) - c ≤ b ∧ (c : Int) - r ≤ b) → Rel id (V id r c) (V' id r c)) :
    List.Forall₂ (NearEvent Rel ids) (l.map fun c : Nat => .column (c : Int) (ids.map fun id => tableColumn V b h id c))
      (l.map fun c : Nat => .column (c : Int) (ids.map fun id => tableColumn V' b h id c)) := by
  rw [List.forall₂_map_left_iff, List.forall₂_map_right_iff, List.forall₂_same]
  intro c hc
  refine .inr ⟨c, _, _, rfl, rfl, fun id hid => ?_⟩
  unfold tableColumn
  rw [List.forall₂_map_left_iff, List.forall₂_map_right_iff, List.forall₂_same]
  intro r hr
  rw [List.mem_range] at hr
  by_cases hb : (r : Int) - c ≤ b ∧ (c : Int) - r ≤ b
  · left; simp only [if_pos hb]
  · right; simp only [if_neg hb]; exact hR id hid c hc r hr hb

/-- Tables near the distances give calls near those with the distances. -/
theorem batch_nearEvents {m n : Nat} {selfJoin : Bool} {b : Int} {order : List Int} {D : Nat → List α → List α → Fl K} {Rel : Nat → Fl K → Fl K → Prop}
    {s q : List α} {ids : List Nat} (hids : ∀ id ∈ ids, id < n) : ∀ (vs : List (BOp × Table K)) (u : BSt),
      (∀ a c, .columns a c ∈ vs.map Prod.fst → a < c → c + m ≤ s.length + 1) → (∀ x ∈ vs, NearTable m n Rel D s q x.2) →
      List.Forall₂ (NearEvent Rel ids) (BSt.allEvents m selfJoin b order D s q ids u (vs.map Prod.fst)) (BSt.allEventsOf m selfJoin b order D s q ids u vs) := by
  intro vs
  induction vs with
  | nil => intro u _ _; exact .nil
  | cons x vs ih =>
    intro u hv hn
    obtain ⟨op, V⟩ := x
    rw [List.map_cons, BSt.allEventsOf, BSt.allEvents]
    refine List.rel_append ?_ (ih (u.step op) (fun a c h => hv a c (by simp [h])) (fun x hx => hn x (by simp [hx])))
    cases op with
    | diagonals k => exact NearEvent.refl_list _ _ _
    | columns a c =>
      have hac := hv a c (by simp)
      have hV := hn (.columns a c, V) (by simp)
      dsimp only at hV
      have := nearEvent_columns (Rel := Rel) (ids := ids) (V := fun id r c => D id ((s.drop c).take m) ((q.drop r).take m)) (V' := V) (b := b)
        (h := q.length + 1 - m) (l := (List.range (c - a)).map (a + ·)) (by
          intro id hid c' hc' r hr _
          obtain ⟨i, hi, rfl⟩ := List.mem_map.mp hc'
          rw [List.mem_range] at hi
          exact hV id (hids id hid) r (a + i) (by omega) (by omega))
      rw [List.map_map, List.map_map] at this
      exact this

/-- The tables of all calculated columns are related to the distances outside the trivial match band. -/
def Spec.MSt.AllNearOff (m N : Nat) (M : Option Nat) (b : Int) (n : Nat) (Rel : Nat → Fl K → Fl K → Prop) (D : Nat → List α → List α → Fl K) :
    MSt α → List (MOp α × Table K) → Prop
  | _, [] => True
  | u, x :: xs => (∀ k, x.1 = .columns k → ∀ id < n, ∀ r c, r + m ≤ (lastN (M.getD N) u.q).length → c + m ≤ (lastN N u.s).length →
      ¬ ((r : Int) - c ≤ b ∧ (c : Int) - r ≤ b) →
      Rel id (D id (((lastN N u.s).drop c).take m) (((lastN (M.getD N) u.q).drop r).take m)) (x.2 id r c)) ∧
    Spec.MSt.AllNearOff m N M b n Rel D (u.step m N M x.1) xs

theorem Spec.MSt.AllNear.off {m N : Nat} {M : Option Nat} (b : Int) {n : Nat} {Rel : Nat → Fl K → Fl K → Prop} {D : Nat → List α → List α → Fl K} :
    ∀ {u : MSt α} {vs : List (MOp α × Table K)}, u.AllNear m N M n Rel D vs → u.AllNearOff m N M b n Rel D vs
  | _, [], _ => trivial
  | _, _ :: _, h => ⟨fun _ _ id hid r c h1 h2 _ => h.1 id hid r c h1 h2, Spec.MSt.AllNear.off b h.2⟩

/-- Tables near the distances give calls near those with the distances. -/
theorem stream_nearOff {m N : Nat} {M : Option Nat} {b : Int} (hbj : M ≠ none → b = -1) {n : Nat} {E : Nat → List α → List α → Fl K}
    {Rel : Nat → Fl K → Fl K → Prop} {ids : List Nat} (hids : ∀ id ∈ ids, id < n) (hm0 : 0 < m) :
    ∀ (vs : List (MOp α × Table K)) (u : MSt α), (M = none → u.q = u.s) → u.All m N M (fun u op => u.Valid m M op) (vs.map Prod.fst) →
      u.AllNearOff m N M b n Rel E vs →
      List.Forall₂ (NearEvent Rel ids) (MSt.allEvents m N M b E ids u (vs.map Prod.fst)) (MSt.allEventsOf m N M b E ids u vs) := by
  have main : ∀ (vs vs0 : List (MOp α × Table K)) (u : MSt α), vs0.map Prod.fst = vs.map Prod.fst → u.AllNearOff m N M b n Rel E vs →
      u.AllNear m N M n (fun _ => Eq) E vs0 →
      List.Forall₂ (NearEvent Rel ids) (MSt.allEventsOf m N M b E ids u vs0) (MSt.allEventsOf m N M b E ids u vs) := by
    intro vs
    induction vs with
    | nil =>
      intro vs0 u h1 _ _
      rw [List.map_nil, List.map_eq_nil_iff] at h1
      subst h1
      exact .nil
    | cons x vs ih =>
      intro vs0 u h1 h2 h3
      cases vs0 with
      | nil => simp at h1
      | cons x0 vs0 =>
        obtain ⟨op, V⟩ := x
        obtain ⟨op0, V0⟩ := x0
        simp only [List.map_cons, List.cons.injEq] at h1
        obtain ⟨rfl, h1⟩ := h1
        rw [MSt.allEventsOf, MSt.allEventsOf]
        refine List.rel_append ?_ (ih vs0 (u.step m N M op0) h1 h2.2 h3.2)
        cases op0 with
        | series v => exact NearEvent.refl_list _ _ _
        | query v => exact NearEvent.refl_list _ _ _
        | columns k =>
          have := nearEvent_columns (Rel := Rel) (ids := ids) (V := V0) (V' := V) (b := b)
            (h := (lastN (M.getD N) u.q).length + 1 - m)
            (l := (List.range (min k.toNat ((lastN N u.s).length + 1 - m) - (u.next - (u.s.length - N)))).map (u.next - (u.s.length - N) + ·)) (by
              intro id hid c' hc' r hr hb
              obtain ⟨i, hi, rfl⟩ := List.mem_map.mp hc'
              rw [List.mem_range] at hi
              have e := h3.1 id (hids id hid) r (u.next - (u.s.length - N) + i) (by omega) (by omega)
              have e' := h2.1 k rfl id (hids id hid) r (u.next - (u.s.length - N) + i) (by omega) (by omega) hb
              dsimp only at e e'
              rw [← e]
              exact e')
          rw [List.map_map, List.map_map] at this
          exact this
  intro vs u hs hv hn
  have hex : ∀ (us : List (MOp α)) (u : MSt α), ∃ vs0 : List (MOp α × Table K), vs0.map Prod.fst = us ∧ u.AllNear m N M n (fun _ => Eq) E vs0 := by
    intro us
    induction us with
    | nil => intro u; exact ⟨[], rfl, trivial⟩
    | cons x us ih =>
      intro u
      obtain ⟨vs0, h1, h2⟩ := ih (u.step m N M x)
      exact ⟨(x, fun id r c => E id (((lastN N u.s).drop c).take m) (((lastN (M.getD N) u.q).drop r).take m)) :: vs0, by simp [h1],
        fun _ _ _ _ _ _ => rfl, h2⟩
  obtain ⟨vs0, h1, h2⟩ := hex (vs.map Prod.fst) u
  have := main vs vs0 u h1 hn h2
  rwa [allEventsOf_exact b hbj ids n hids E hm0 vs0 u hs (by rw [h1]; exact hv) h2, h1] at this

/-- Tables near the distances give calls near those with the distances. -/
theorem stream_nearEvents {m N : Nat} {M : Option Nat} {b : Int} (hbj : M ≠ none → b = -1) {n : Nat} {E : Nat → List α → List α → Fl K}
    {Rel : Nat → Fl K → Fl K → Prop} {ids : List Nat} (hids : ∀ id ∈ ids, id < n) (hm0 : 0 < m) (vs : List (MOp α × Table K)) (u : MSt α)
    (hs : M = none → u.q = u.s) (hv : u.All m N M (fun u op => u.Valid m M op) (vs.map Prod.fst)) (hn : u.AllNear m N M n Rel E vs) :
    List.Forall₂ (NearEvent Rel ids) (MSt.allEvents m N M b E ids u (vs.map Prod.fst)) (MSt.allEventsOf m N M b E ids u vs) :=
  stream_nearOff hbj hids hm0 vs u hs hv (hn.off b)

/-- Lists of consumers that all accept what they get. -/
theorem allFed_of {G : Type} {ops : Ops G C K} {evs : List Nat → List (CEvent K)} {cs : List (C × List Nat)}
    (h : ∀ c ∈ cs, ∃ p', feed ops c.1 (evs c.2) = .ok p') : ∃ cs', AllFed ops evs cs cs' := by
  induction cs with
  | nil => exact ⟨[], .nil⟩
  | cons c cs ih =>
    obtain ⟨p', h1⟩ := h c (by simp)
    obtain ⟨cs', h2⟩ := ih fun c hc => h c (by simp [hc])
    exact ⟨(p', c.2) :: cs', .cons ⟨rfl, h1⟩ h2⟩

/-- Initialised consumers of arguments `xs`. -/
theorem initialised {ι : Type} {init : C → Nat → Except PyErr C} (xs : List ι) (f : ι → C × List Nat) (p : ι → C)
    (h : ∀ x ∈ xs, init (f x).1 (f x).2.length = .ok (p x)) :
    List.Forall₂ (fun c c' => c'.2 = c.2 ∧ init c.1 c.2.length = .ok c'.1) (xs.map f) (xs.map fun x => (p x, (f x).2)) := by
  rw [List.forall₂_map_left_iff, List.forall₂_map_right_iff, List.forall₂_same]
  exact fun x hx => ⟨rfl, h x hx⟩

/-- What every single consumer does with calls near the exact ones, all consumers do. -/
theorem BatchCase.nearConsumers {B : BatchCase α} {ι : Type} (ops : GenOps (ColCache ℝ ⊕ ZN) ℝ → Ops (ColCache ℝ ⊕ ZN) C ℝ) (hops : ∀ g, (ops g).gen = g)
    (xs : List ι) (f : ι → C × List Nat) (hB : B.Any (xs.map fun x => (f x).2)) (Post : ι → C → Prop)
    (hfed : ∀ x ∈ xs, ∃ p0, (ops (GenKind.ops B.memE B.memZ)).initialise (f x).1 (f x).2.length (B.h : Int) (B.w : Int) = .ok p0 ∧
      ∀ es, List.Forall₂ (NearEvent (nearRel B.kinds) (f x).2) (B.events (f x).2) es → ∃ p', feed (ops (GenKind.ops B.memE B.memZ)) p0 es = .ok p' ∧ Post x p') :
    ∃ cons', B.result ops (xs.map f) = .ok cons' ∧ List.Forall₂ (fun x c' => c'.2 = (f x).2 ∧ Post x c'.1) xs cons' := by
  classical
  have hfed' : ∀ x, ∃ p0, x ∈ xs → (ops (GenKind.ops B.memE B.memZ)).initialise (f x).1 (f x).2.length (B.h : Int) (B.w : Int) = .ok p0 ∧
      ∀ es, List.Forall₂ (NearEvent (nearRel B.kinds) (f x).2) (B.events (f x).2) es → ∃ p', feed (ops (GenKind.ops B.memE B.memZ)) p0 es = .ok p' ∧ Post x p' := by
    intro x
    by_cases hx : x ∈ xs
    · obtain ⟨p0, h⟩ := hfed x hx
      exact ⟨p0, fun _ => h⟩
    · exact ⟨(f x).1, fun h => absurd h hx⟩
  choose p0 hp' using hfed'
  have hp0 := fun x hx => (hp' x hx).1
  have hp := fun x hx => (hp' x hx).2
  have hnear : ∀ (vs : List (BOp × Table ℝ)), vs.map Prod.fst = B.us →
      (∀ y ∈ vs, NearTable B.m B.kinds.length (nearRel B.kinds) (streamDist B.π B.m B.kinds) B.s B.q y.2) → ∀ x ∈ xs,
      List.Forall₂ (NearEvent (nearRel B.kinds) (f x).2) (B.events (f x).2)
        (BSt.allEventsOf B.m B.query.isNone B.b B.order (streamDist B.π B.m B.kinds) B.s B.q (f x).2 BSt.init vs) := by
    intro vs h1 h2 x hx
    have := batch_nearEvents (selfJoin := B.query.isNone) (b := B.b) (order := B.order) (ids := (f x).2)
      (fun id hid => hB.id_lt (List.mem_map_of_mem hx) hid) vs BSt.init (by rw [h1]; exact hB.calls.columns_fit hB.args.series) h2
    rw [h1] at this
    exact this
  obtain ⟨vs, h1, h2, cons2, h3, h4⟩ := C75_batch_feed B.memE hB.memE B.memZ hB.memZ (ops (GenKind.ops B.memE B.memZ)) (hops _) B.shuffle hB.perm B.π B.m B.s B.query
    B.nDim B.buffer B.kinds (xs.map f) (xs.map fun x => (p0 x, (f x).2)) B.needed (by simpa [List.map_map, Function.comp_def] using hB.args)
    (initialised (init := fun c n => (ops (GenKind.ops B.memE B.memZ)).initialise c n (B.h : Int) (B.w : Int)) xs f p0 hp0) B.us B.os hB.calls (by
      intro vs h1 h2
      apply allFed_of
      intro c hc
      obtain ⟨x, hx, rfl⟩ := List.mem_map.mp hc
      obtain ⟨p', e, -⟩ := hp x hx _ (hnear vs h1 h2 x hx)
      exact ⟨p', e⟩)
  refine ⟨cons2, h3, ?_⟩
  unfold AllFed at h4
  rw [List.forall₂_map_left_iff] at h4
  rw [List.forall₂_iff_get] at h4 ⊢
  refine ⟨h4.1, fun i hi hi' => ?_⟩
  obtain ⟨g1, g2⟩ := h4.2 i hi hi'
  have hx : xs.get ⟨i, hi⟩ ∈ xs := List.get_mem _ _
  obtain ⟨p', e, e'⟩ := hp _ hx _ (hnear vs h1 h2 _ hx)
  refine ⟨g1, ?_⟩
  have g3 := g2.symm.trans e
  cases g3
  exact e'

/-- What every single consumer does with calls near the exact ones, all consumers do. -/
theorem StreamCase.nearConsumers {S : StreamCase α} {ι : Type} (ops : GenOps (ColCache ℝ ⊕ ZN) ℝ → Ops (ColCache ℝ ⊕ ZN) C ℝ) (hops : ∀ g, (ops g).gen = g)
    (xs : List ι) (f : ι → C × List Nat) (hS : S.Any (xs.map fun x => (f x).2)) (Post : ι → C → Prop)
    (hfed : ∀ x ∈ xs, ∃ p0, (ops (GenKind.ops S.memE S.memZ)).initialise (f x).1 (f x).2.length (S.h : Int) (S.w : Int) = .ok p0 ∧
      ∀ es, List.Forall₂ (NearEvent (nearRel S.kinds) (f x).2) (S.events (f x).2) es → ∃ p', feed (ops (GenKind.ops S.memE S.memZ)) p0 es = .ok p' ∧ Post x p') :
    ∃ cons', S.result ops (xs.map f) = .ok cons' ∧ List.Forall₂ (fun x c' => c'.2 = (f x).2 ∧ Post x c'.1) xs cons' := by
  classical
  have hfed' : ∀ x, ∃ p0, x ∈ xs → (ops (GenKind.ops S.memE S.memZ)).initialise (f x).1 (f x).2.length (S.h : Int) (S.w : Int) = .ok p0 ∧
      ∀ es, List.Forall₂ (NearEvent (nearRel S.kinds) (f x).2) (S.events (f x).2) es → ∃ p', feed (ops (GenKind.ops S.memE S.memZ)) p0 es = .ok p' ∧ Post x p' := by
    intro x
    by_cases hx : x ∈ xs
    · obtain ⟨p0, h⟩ := hfed x hx
      exact ⟨p0, fun _ => h⟩
    · exact ⟨(f x).1, fun h => absurd h hx⟩
  choose p0 hp' using hfed'
  have hp0 := fun x hx => (hp' x hx).1
  have hp := fun x hx => (hp' x hx).2
  have hnear : ∀ (vs : List (MOp α × Table ℝ)), vs.map Prod.fst = S.us →
      MSt.init.AllNear S.m S.N S.M S.kinds.length (nearRel S.kinds) (streamDist S.π S.m S.kinds) vs → ∀ x ∈ xs,
      List.Forall₂ (NearEvent (nearRel S.kinds) (f x).2) (S.events (f x).2)
        (MSt.allEventsOf S.m S.N S.M S.b (streamDist S.π S.m S.kinds) (f x).2 MSt.init vs) := by
    intro vs h1 h2 x hx
    have := stream_nearEvents (b := S.b) (M := S.M) (by
      intro h
      unfold StreamCase.b bufferOf
      cases hM : S.M with
      | none => exact absurd hM h
      | some _ => rfl) (ids := (f x).2) (fun id hid => hS.id_lt (List.mem_map_of_mem hx) hid) hS.args.pos vs MSt.init (fun _ => rfl)
        (by rw [h1]; exact hS.valid) h2
    rw [h1] at this
    exact this
  obtain ⟨vs, h1, h2, cons2, h3, h4⟩ := C75_stream_feed S.memE hS.memE S.memZ hS.memZ (ops (GenKind.ops S.memE S.memZ)) (hops _) S.π S.m S.N S.M
    S.nDim S.buffer S.kinds (xs.map f) (xs.map fun x => (p0 x, (f x).2)) S.needed (by simpa [List.map_map, Function.comp_def] using hS.args)
    (initialised (init := fun c n => (ops (GenKind.ops S.memE S.memZ)).initialise c n (S.h : Int) (S.w : Int)) xs f p0 hp0) S.us S.os hS.calls hS.valid (by
      intro vs h1 h2
      apply allFed_of
      intro c hc
      obtain ⟨x, hx, rfl⟩ := List.mem_map.mp hc
      obtain ⟨p', e, -⟩ := hp x hx _ (hnear vs h1 h2 x hx)
      exact ⟨p', e⟩)
  refine ⟨cons2, h3, ?_⟩
  unfold AllFed at h4
  rw [List.forall₂_map_left_iff] at h4
  rw [List.forall₂_iff_get] at h4 ⊢
  refine ⟨h4.1, fun i hi hi' => ?_⟩
  obtain ⟨g1, g2⟩ := h4.2 i hi hi'
  have hx : xs.get ⟨i, hi⟩ ∈ xs := List.get_mem _ _
  obtain ⟨p', e, e'⟩ := hp _ hx _ (hnear vs h1 h2 _ hx)
  refine ⟨g1, ?_⟩
  have g3 := g2.symm.trans e
  cases g3
  exact e'

end Verif
