import Verif.Props.FilteredFeed
import Verif.Props.NearMatrix

/-!
Whole calculations with filters: what a single consumer does with the exact distances, or values near them, all consumers of a calculation do.
-/

namespace Verif
open Spec
variable {α C : Type}

/-! ### Distances under filters -/

/-- Does the filter of a generator mark a point of the subsequence `a`? -/
def FKind.Marked : FKind → List (Fl ℝ) → Prop
  | .plain _, _ => False
  | .filtered p _ _, a => ∃ x ∈ a, p x = true

/-- The distance of two subsequences that are not marked, as a number. -/
noncomputable def FKind.value (m : Nat) (k : FKind) (a b : List (Fl ℝ)) : ℝ := k.inner.value m (a.map numOf) (b.map numOf)

theorem GenKind.dist_value (m : Nat) (k : GenKind) (a b : List ℝ) : k.dist m a b = .fin (k.value m a b) := by cases k <;> rfl

theorem FKind.dist_marked {m : Nat} {k : FKind} {a b : List (Fl ℝ)} (h : k.Marked a ∨ k.Marked b) : k.dist m a b = .pinf := by
  cases k with
  | plain k => exact (h.elim (·) (·)).elim
  | filtered p scale k =>
    simp only [FKind.dist, filterDist]
    rw [if_pos]
    simpa [FKind.Marked] using h

theorem FKind.dist_value {m : Nat} {k : FKind} {a b : List (Fl ℝ)} (h : ¬ (k.Marked a ∨ k.Marked b)) : k.dist m a b = .fin (k.value m a b) := by
  cases k with
  | plain k => exact k.dist_value m _ _
  | filtered p scale k =>
    simp only [FKind.dist, filterDist]
    rw [if_neg]
    · exact k.dist_value m _ _
    · simpa [FKind.Marked] using h

theorem FKind.dist_symm (m : Nat) (k : FKind) (a b : List (Fl ℝ)) : k.dist m a b = k.dist m b a := by
  cases k with
  | plain k => exact k.dist_symm m _ _
  | filtered p scale k =>
    simp only [FKind.dist, filterDist]
    rw [Bool.or_comm, k.dist_symm]

/-- Does the filter of generator `id` mark a point of the subsequence (of frames) `a`? -/
def filteredMarked (π : Nat → α → Fl ℝ) (kinds : List (FKind × Nat)) (id : Nat) (a : List α) : Prop :=
  match kinds[id]? with
  | some (k, ch) => k.Marked (a.map (π ch))
  | none => False

/-- The distance of two subsequences that are not marked by generator `id`, as a number. -/
noncomputable def filteredValue (π : Nat → α → Fl ℝ) (m : Nat) (kinds : List (FKind × Nat)) (id : Nat) (a b : List α) : ℝ :=
  match kinds[id]? with
  | some (k, ch) => k.value m (a.map (π ch)) (b.map (π ch))
  | none => 0

theorem filteredDist_marked {π : Nat → α → Fl ℝ} {m : Nat} {kinds : List (FKind × Nat)} {id : Nat} {a b : List α}
    (h : filteredMarked π kinds id a ∨ filteredMarked π kinds id b) : filteredDist π m kinds id a b = .pinf := by
  unfold filteredMarked at h
  unfold filteredDist
  cases hk : kinds[id]? with
  | none => rw [hk] at h; exact (h.elim (·) (·)).elim
  | some k => rw [hk] at h; exact FKind.dist_marked h

theorem filteredDist_value {π : Nat → α → Fl ℝ} {m : Nat} {kinds : List (FKind × Nat)} {id : Nat} (hid : id < kinds.length) {a b : List α}
    (h : ¬ (filteredMarked π kinds id a ∨ filteredMarked π kinds id b)) : filteredDist π m kinds id a b = .fin (filteredValue π m kinds id a b) := by
  unfold filteredMarked at h
  unfold filteredDist filteredValue
  rw [List.getElem?_eq_getElem hid] at h ⊢
  exact FKind.dist_value h

theorem filteredDist_symm (π : Nat → α → Fl ℝ) (m : Nat) (kinds : List (FKind × Nat)) (id : Nat) (a b : List α) :
    filteredDist π m kinds id a b = filteredDist π m kinds id b a := by
  unfold filteredDist
  cases kinds[id]? with
  | none => rfl
  | some k => exact k.1.dist_symm m _ _

theorem filteredDist_ne_nan (π : Nat → α → Fl ℝ) (m : Nat) (kinds : List (FKind × Nat)) (id : Nat) (hid : id < kinds.length) (a b : List α) :
    filteredDist π m kinds id a b ≠ .nan := by
  by_cases h : filteredMarked π kinds id a ∨ filteredMarked π kinds id b
  · rw [filteredDist_marked h]; simp
  · rw [filteredDist_value hid h]; simp

theorem FKind.good_znorm {k : FKind} (hz : ∃ noise scale, k.inner = .znorm noise scale) (m : Nat) (s q : List (Fl ℝ)) : k.Good exactMode m s q := by
  obtain ⟨noise, scale', h⟩ := hz
  cases k with
  | plain k => cases h; trivial
  | filtered p scale k => cases h; trivial

theorem modeRel_exact {kinds : List (FKind × Nat)} {id : Nat} {d v : Fl ℝ} (h : modeRel exactMode kinds id d v) : v = d := by
  unfold modeRel at h
  cases hk : kinds[id]? with
  | none => rw [hk] at h; exact Eq.symm h
  | some k => rw [hk] at h; exact k.1.rel_exact d v h

theorem nearEvents_eq {K : Type} {Rel : Nat → Fl K → Fl K → Prop} (hR : ∀ id d v, Rel id d v → v = d) {ids : List Nat} {es es' : List (CEvent K)}
    (h : List.Forall₂ (NearEvent Rel ids) es es') : es' = es := by
  induction h with
  | nil => rfl
  | @cons e e' es es' he _ ih =>
    rw [ih]
    congr 1
    rcases he with he | ⟨c, F, F', rfl, rfl, hF⟩
    · exact he
    · congr 1
      apply List.map_congr_left
      intro id hid
      have := hF id hid
      generalize F id = v at this ⊢
      generalize F' id = v' at this ⊢
      induction this with
      | nil => rfl
      | cons hx _ ih => rw [ih]; congr 1; exact hx.elim (·) (hR id _ _)

/-! ### Batch -/

namespace FilteredBatch
variable (B : FilteredBatch α)

/-- Was the distance of the pair (`r`, `c`) delivered? -/
def done (r c : Nat) : Prop := BSt.init.covered B.query.isNone B.b B.order B.us r c
/-- Was column `c` calculated by a `calculate_columns` call? -/
def column (c : Nat) : Prop := ∃ a e, .columns a e ∈ B.us ∧ a ≤ c ∧ c < e
/-- Does generator `id` mark a point in the pair (`r`, `c`) of subsequences? -/
def marked (id r c : Nat) : Prop := filteredMarked B.π B.kinds id ((B.s.drop c).take B.m) ∨ filteredMarked B.π B.kinds id ((B.q.drop r).take B.m)
/-- The distance of the pair (`r`, `c`) by generator `id`, if it is not marked. -/
noncomputable def value (id r c : Nat) : ℝ := filteredValue B.π B.m B.kinds id ((B.s.drop c).take B.m) ((B.q.drop r).take B.m)
/-- The distances with `+inf` in the trivial match band. -/
noncomputable def masked (id r c : Nat) : Fl ℝ := pairValue (B.dist id) B.m B.b B.s B.q r c
/-- The calls with the exact distances. -/
noncomputable def exactEvents (ids : List Nat) : List (CEvent ℝ) := BSt.allEvents B.m B.query.isNone B.b B.order B.dist B.s B.q ids BSt.init B.us
/-- The deliveries with the exact distances for a consumer of generator `id`. -/
noncomputable def dels (id : Nat) : List (Delivery ℝ) := allDeliveries B.m B.query.isNone B.b B.order (B.dist id) B.s B.q BSt.init B.us

/-- Good data for a description of the generators. -/
structure Fine (μ : GenMode) (idss : List (List Nat)) : Prop extends B.Ok idss where
  good : (∃ a c, a < c ∧ .columns a c ∈ B.us) → ∀ k ∈ B.kinds, k.1.Good μ B.m (B.s.map (B.π k.2)) (B.q.map (B.π k.2))

variable {B}

theorem Ok.near {idss : List (List Nat)} (h : B.Ok idss) : B.Fine nearMode idss := ⟨h, fun _ k _ => k.1.good_near _ _ _⟩

theorem exactEvents_single (id : Nat) : B.exactEvents [id] = (B.dels id).map Delivery.event := (allDeliveries_events _ _ _ _ _ _ _ _ _ _).symm

theorem Ok.id_lt {idss : List (List Nat)} (h : B.Ok idss) {ids : List Nat} (h1 : ids ∈ idss) {id : Nat} (h2 : id ∈ ids) : id < B.kinds.length := by
  have := h.args.ids ids h1 id h2
  simpa [innerKinds] using this

theorem Ok.order_ok {idss : List (List Nat)} (h : B.Ok idss) : OrderOk B.m B.query.isNone B.b B.order B.s.length B.q.length ∧ B.order.Nodup :=
  have := batchOrder_ok h.perm h.args.series (fun e => (h.args.bufferLen e).1) (batchQuery_le h.args)
  ⟨this.1, this.2.1⟩

theorem Ok.cells {idss : List (List Nat)} (h : B.Ok idss) (id : Nat) : CellsAre (B.masked id) B.h B.w B.done (B.dels id) :=
  allDeliveries_cells B.m B.query.isNone _ (batchBuffer_ge h.args).1 _ _ B.s B.q h.args.series (batchQuery_le h.args) h.order_ok.1
    (by intro e; unfold FilteredBatch.q; rw [Option.isNone_iff_eq_none.mp e]; rfl) (batchBuffer_ge h.args).2
    (fun _ a b => filteredDist_symm B.π B.m B.kinds id a b) B.us _ h.calls.columns_le

theorem Ok.done_far {idss : List (List Nat)} (h : B.Ok idss) {r c : Nat} (hd : B.done r c) : ¬ ((r : Int) - c ≤ B.b ∧ (c : Int) - r ≤ B.b) :=
  covered_far (batchBuffer_ge h.args).1 h.order_ok.1 (batchBuffer_ge h.args).2 hd

/-- What every single consumer does with calls near the exact ones, all consumers do. -/
theorem consumersOf (μ : GenMode) {ι : Type} (ops : GenOps FGen ℝ → Ops FGen C ℝ) (hops : ∀ g, (ops g).gen = g)
    (xs : List ι) (f : ι → C × List Nat) (hB : B.Fine μ (xs.map fun x => (f x).2)) (Post : ι → C → Prop)
    (hfed : ∀ x ∈ xs, ∃ p0, (ops (FKind.ops B.memE B.memZ)).initialise (f x).1 (f x).2.length (B.h : Int) (B.w : Int) = .ok p0 ∧
      ∀ es, List.Forall₂ (NearEvent (modeRel μ B.kinds) (f x).2) (B.exactEvents (f x).2) es → ∃ p', feed (ops (FKind.ops B.memE B.memZ)) p0 es = .ok p' ∧ Post x p') :
    ∃ cons', B.result (ops (FKind.ops B.memE B.memZ)) (xs.map f) = .ok cons' ∧ List.Forall₂ (fun x c' => c'.2 = (f x).2 ∧ Post x c'.1) xs cons' := by
  classical
  have hfed' : ∀ x, ∃ p0, x ∈ xs → (ops (FKind.ops B.memE B.memZ)).initialise (f x).1 (f x).2.length (B.h : Int) (B.w : Int) = .ok p0 ∧
      ∀ es, List.Forall₂ (NearEvent (modeRel μ B.kinds) (f x).2) (B.exactEvents (f x).2) es →
        ∃ p', feed (ops (FKind.ops B.memE B.memZ)) p0 es = .ok p' ∧ Post x p' := by
    intro x
    by_cases hx : x ∈ xs
    · obtain ⟨p0, h⟩ := hfed x hx
      exact ⟨p0, fun _ => h⟩
    · exact ⟨(f x).1, fun h => absurd h hx⟩
  choose p0 hp' using hfed'
  have hp0 := fun x hx => (hp' x hx).1
  have hp := fun x hx => (hp' x hx).2
  have hnear : ∀ (vs : List (BOp × Table ℝ)), B.NearOf (modeRel μ B.kinds) vs → ∀ x ∈ xs,
      List.Forall₂ (NearEvent (modeRel μ B.kinds) (f x).2) (B.exactEvents (f x).2) (B.events vs (f x).2) := by
    rintro vs ⟨h1, h2⟩ x hx
    have := batch_nearEvents (selfJoin := B.query.isNone) (b := B.b) (order := B.order) (ids := (f x).2)
      (fun id hid => hB.id_lt (List.mem_map_of_mem hx) hid) vs BSt.init (by rw [h1]; exact hB.calls.columns_fit hB.args.series) h2
    rw [h1] at this
    exact this
  obtain ⟨vs, h1, cons2, h3, h4⟩ := filteredBatch_feed μ B (ops (FKind.ops B.memE B.memZ)) (hops _) (xs.map f) (xs.map fun x => (p0 x, (f x).2))
    (by simpa [List.map_map, Function.comp_def] using hB.toOk)
    (initialised (init := fun c n => (ops (FKind.ops B.memE B.memZ)).initialise c n (B.h : Int) (B.w : Int)) xs f p0 hp0) hB.good (by
      intro vs h1
      apply allFed_of
      intro c hc
      obtain ⟨x, hx, rfl⟩ := List.mem_map.mp hc
      obtain ⟨p', e, -⟩ := hp x hx _ (hnear vs h1 x hx)
      exact ⟨p', e⟩)
  refine ⟨cons2, h3, ?_⟩
  unfold AllFed at h4
  rw [List.forall₂_map_left_iff] at h4
  rw [List.forall₂_iff_get] at h4 ⊢
  refine ⟨h4.1, fun i hi hi' => ?_⟩
  obtain ⟨g1, g2⟩ := h4.2 i hi hi'
  have hx : xs.get ⟨i, hi⟩ ∈ xs := List.get_mem _ _
  obtain ⟨p', e, e'⟩ := hp _ hx _ (hnear vs h1 _ hx)
  refine ⟨g1, ?_⟩
  have g3 := g2.symm.trans e
  cases g3
  exact e'

/-- The same if all distances are exact. -/
theorem exactConsumers {ι : Type} (ops : GenOps FGen ℝ → Ops FGen C ℝ) (hops : ∀ g, (ops g).gen = g)
    (xs : List ι) (f : ι → C × List Nat) (hB : B.Fine exactMode (xs.map fun x => (f x).2)) (Post : ι → C → Prop)
    (hfed : ∀ x ∈ xs, ∃ p0 p', (ops (FKind.ops B.memE B.memZ)).initialise (f x).1 (f x).2.length (B.h : Int) (B.w : Int) = .ok p0 ∧
      feed (ops (FKind.ops B.memE B.memZ)) p0 (B.exactEvents (f x).2) = .ok p' ∧ Post x p') :
    ∃ cons', B.result (ops (FKind.ops B.memE B.memZ)) (xs.map f) = .ok cons' ∧ List.Forall₂ (fun x c' => c'.2 = (f x).2 ∧ Post x c'.1) xs cons' := by
  refine consumersOf exactMode ops hops xs f hB Post fun x hx => ?_
  obtain ⟨p0, p', e1, e2, e3⟩ := hfed x hx
  refine ⟨p0, e1, fun es hes => ⟨p', ?_, e3⟩⟩
  rw [nearEvents_eq (fun _ _ _ => modeRel_exact) hes]
  exact e2

end FilteredBatch

/-! ### Streaming -/

namespace FilteredStream
variable (S : FilteredStream α)

/-- The streams and the calculated pairs at the end. -/
def last : MSt α := MSt.init.run S.m S.N S.M S.us
/-- The calls with the exact distances. -/
noncomputable def exactEvents (ids : List Nat) : List (CEvent ℝ) := MSt.allEvents S.m S.N S.M S.b S.dist ids MSt.init S.us
/-- The deliveries with the exact distances for a consumer of generator `id`. -/
noncomputable def dels (id : Nat) : List (Delivery ℝ) := MSt.allDeliveries S.m S.N S.M S.b (S.dist id) MSt.init S.us

/-- Good data for a description of the generators. -/
structure Fine (μ : GenMode) (idss : List (List Nat)) : Prop extends S.Ok idss where
  good : MSt.init.All S.m S.N S.M (fun u op => ∀ k, op = .columns k → ∀ g ∈ S.kinds,
      g.1.Good μ S.m (lastN S.N (u.s.map (S.π g.2))) (lastN (S.M.getD S.N) (u.q.map (S.π g.2)))) S.us

variable {S}

theorem Ok.near {idss : List (List Nat)} (h : S.Ok idss) : S.Fine nearMode idss := by
  refine ⟨h, ?_⟩
  generalize (MSt.init : MSt α) = u
  generalize S.us = us
  induction us generalizing u with
  | nil => trivial
  | cons x us ih => exact ⟨fun _ _ k _ => k.1.good_near _ _ _, ih _⟩

theorem exactEvents_single (id : Nat) : S.exactEvents [id] = (S.dels id).map Delivery.event := allEvents_single _ _ _ _ _ _ _ _

theorem Ok.id_lt {idss : List (List Nat)} (h : S.Ok idss) {ids : List Nat} (h1 : ids ∈ idss) {id : Nat} (h2 : id ∈ ids) : id < S.kinds.length := by
  have := h.args.ids ids h1 id h2
  simpa [innerKinds] using this

theorem Ok.fits {idss : List (List Nat)} (h : S.Ok idss) (id : Nat) : SeenFits S.m S.N S.M S.b (S.dist id) S.last (Seen.init.run (S.dels id)) :=
  SeenFits.run h.args.pos S.us MSt.init Seen.init (SeenFits.init _ _ _ _ _) h.valid

theorem Ok.dels_valid {idss : List (List Nat)} (h : S.Ok idss) {id : Nat} (hid : id < S.kinds.length) : ∀ d ∈ S.dels id, d.Valid S.h S.w ∧ d.ColumnClean :=
  allDeliveries_valid h.args.pos (filteredDist_ne_nan S.π S.m S.kinds id hid) S.us MSt.init (fun _ => rfl) h.args.query h.args.series h.valid

/-- What every single consumer does with calls near the exact ones, all consumers do. -/
theorem consumersOf (μ : GenMode) {ι : Type} (ops : GenOps FGen ℝ → Ops FGen C ℝ) (hops : ∀ g, (ops g).gen = g)
    (xs : List ι) (f : ι → C × List Nat) (hS : S.Fine μ (xs.map fun x => (f x).2)) (Post : ι → C → Prop)
    (hfed : ∀ x ∈ xs, ∃ p0, (ops (FKind.ops S.memE S.memZ)).initialise (f x).1 (f x).2.length (S.h : Int) (S.w : Int) = .ok p0 ∧
      ∀ es, List.Forall₂ (NearEvent (modeRel μ S.kinds) (f x).2) (S.exactEvents (f x).2) es → ∃ p', feed (ops (FKind.ops S.memE S.memZ)) p0 es = .ok p' ∧ Post x p') :
    ∃ cons', S.result (ops (FKind.ops S.memE S.memZ)) (xs.map f) = .ok cons' ∧ List.Forall₂ (fun x c' => c'.2 = (f x).2 ∧ Post x c'.1) xs cons' := by
  classical
  have hfed' : ∀ x, ∃ p0, x ∈ xs → (ops (FKind.ops S.memE S.memZ)).initialise (f x).1 (f x).2.length (S.h : Int) (S.w : Int) = .ok p0 ∧
      ∀ es, List.Forall₂ (NearEvent (modeRel μ S.kinds) (f x).2) (S.exactEvents (f x).2) es →
        ∃ p', feed (ops (FKind.ops S.memE S.memZ)) p0 es = .ok p' ∧ Post x p' := by
    intro x
    by_cases hx : x ∈ xs
    · obtain ⟨p0, h⟩ := hfed x hx
      exact ⟨p0, fun _ => h⟩
    · exact ⟨(f x).1, fun h => absurd h hx⟩
  choose p0 hp' using hfed'
  have hp0 := fun x hx => (hp' x hx).1
  have hp := fun x hx => (hp' x hx).2
  have hnear : ∀ (vs : List (MOp α × Table ℝ)), S.NearOf (modeRel μ S.kinds) vs → ∀ x ∈ xs,
      List.Forall₂ (NearEvent (modeRel μ S.kinds) (f x).2) (S.exactEvents (f x).2) (S.events vs (f x).2) := by
    rintro vs ⟨h1, h2⟩ x hx
    have := stream_nearEvents (b := S.b) (M := S.M) (by
      intro h
      unfold FilteredStream.b bufferOf
      cases hM : S.M with
      | none => exact absurd hM h
      | some _ => rfl) (ids := (f x).2) (fun id hid => hS.id_lt (List.mem_map_of_mem hx) hid) hS.args.pos vs MSt.init (fun _ => rfl)
        (by rw [h1]; exact hS.valid) h2
    rw [h1] at this
    exact this
  obtain ⟨vs, h1, cons2, h3, h4⟩ := filteredStream_feed μ S (ops (FKind.ops S.memE S.memZ)) (hops _) (xs.map f) (xs.map fun x => (p0 x, (f x).2))
    (by simpa [List.map_map, Function.comp_def] using hS.toOk)
    (initialised (init := fun c n => (ops (FKind.ops S.memE S.memZ)).initialise c n (S.h : Int) (S.w : Int)) xs f p0 hp0) hS.good (by
      intro vs h1
      apply allFed_of
      intro c hc
      obtain ⟨x, hx, rfl⟩ := List.mem_map.mp hc
      obtain ⟨p', e, -⟩ := hp x hx _ (hnear vs h1 x hx)
      exact ⟨p', e⟩)
  refine ⟨cons2, h3, ?_⟩
  unfold AllFed at h4
  rw [List.forall₂_map_left_iff] at h4
  rw [List.forall₂_iff_get] at h4 ⊢
  refine ⟨h4.1, fun i hi hi' => ?_⟩
  obtain ⟨g1, g2⟩ := h4.2 i hi hi'
  have hx : xs.get ⟨i, hi⟩ ∈ xs := List.get_mem _ _
  obtain ⟨p', e, e'⟩ := hp _ hx _ (hnear vs h1 _ hx)
  refine ⟨g1, ?_⟩
  have g3 := g2.symm.trans e
  cases g3
  exact e'

/-- The same if all distances are exact. -/
theorem exactConsumers {ι : Type} (ops : GenOps FGen ℝ → Ops FGen C ℝ) (hops : ∀ g, (ops g).gen = g)
    (xs : List ι) (f : ι → C × List Nat) (hS : S.Fine exactMode (xs.map fun x => (f x).2)) (Post : ι → C → Prop)
    (hfed : ∀ x ∈ xs, ∃ p0 p', (ops (FKind.ops S.memE S.memZ)).initialise (f x).1 (f x).2.length (S.h : Int) (S.w : Int) = .ok p0 ∧
      feed (ops (FKind.ops S.memE S.memZ)) p0 (S.exactEvents (f x).2) = .ok p' ∧ Post x p') :
    ∃ cons', S.result (ops (FKind.ops S.memE S.memZ)) (xs.map f) = .ok cons' ∧ List.Forall₂ (fun x c' => c'.2 = (f x).2 ∧ Post x c'.1) xs cons' := by
  refine consumersOf exactMode ops hops xs f hS Post fun x hx => ?_
  obtain ⟨p0, p', e1, e2, e3⟩ := hfed x hx
  refine ⟨p0, e1, fun es hes => ⟨p', ?_, e3⟩⟩
  rw [nearEvents_eq (fun _ _ _ => modeRel_exact) hes]
  exact e2

end FilteredStream
end Verif
