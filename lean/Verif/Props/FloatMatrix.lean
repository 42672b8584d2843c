import Verif.Props.FloatProfile
import Verif.Props.NearMatrix

/-!
# C88: `DistanceMatrix` in whole batch calculations in floating point
-/

namespace Verif
open Spec
variable {α G K : Type}

/-- One call with related values. -/
theorem DM.call_near {R : Fl K → Fl K → Prop} (gops : GenOps G K) {id : Nat} {e e' : CEvent K} (he : NearCall (fun _ => R) [id] e e') {p p' q : DM K} (hp : p.Near R p')
    (h : e.apply (DM.ops gops) p = .ok q) : ∃ q', e'.apply (DM.ops gops) p' = .ok q' ∧ q.Near R q' := by
  rcases he with ⟨c, F, F', h1, h2, h3⟩ | ⟨d, F, F', rfl, rfl, h3⟩
  · exact DM.apply_near gops (.inr ⟨c, F, F', h1, h2, fun i hi => (h3 i hi).imp fun _ _ => .inr⟩) hp h
  · have hv : List.Forall₂ (fun x y => y = x ∨ R x y) (F id) (F' id) := (h3 id (by simp)).imp fun _ _ => .inr
    have h : p.processDiagonal d [F id] = .ok q := h
    show ∃ q', p'.processDiagonal d [F' id] = .ok q' ∧ _
    unfold DM.processDiagonal at h ⊢
    simp only [show ∀ x : List (Fl K), pyGet [x] 0 = .ok x from fun _ => rfl, bind, Except.bind, pure, Except.pure, hp.h_eq, hp.w_eq] at h ⊢
    rw [← hv.length_eq]
    cases h2 : DM.broadcastTo (pyTo (diagIndices p.h p.w d).1 (F id).length).length (F id) with
    | error e => simp only [h2] at h; cases h
    | ok u =>
      simp only [h2] at h
      cases h
      obtain ⟨u', e1, e2⟩ := DM.broadcastTo_near hv h2
      simp only [e1]
      exact ⟨_, rfl, rfl, rfl, Mat.setMany_near _ _ _ _ _ e2 hp.entries⟩

/-- Many calls. -/
theorem DM.calls_near {R : Fl K → Fl K → Prop} (gops : GenOps G K) {id : Nat} {es es' : List (CEvent K)} (he : List.Forall₂ (NearCall (fun _ => R) [id]) es es') :
    ∀ {p p' q : DM K}, p.Near R p' → feed (DM.ops gops) p es = .ok q → ∃ q', feed (DM.ops gops) p' es' = .ok q' ∧ q.Near R q' := by
  induction he with
  | nil => intro p p' q hp h; cases h; exact ⟨p', rfl, hp⟩
  | @cons e e' es es' he _ ih =>
    intro p p' q hp h
    unfold feed at h ⊢
    cases h1 : e.apply (DM.ops gops) p with
    | error x => rw [h1] at h; cases h
    | ok p1 =>
      rw [h1] at h
      obtain ⟨p1', e1, e2⟩ := DM.call_near gops he hp h1
      rw [e1]
      exact ih e2 h

theorem nearCall_single {Rel : Nat → Fl K → Fl K → Prop} {id : Nat} {es es' : List (CEvent K)} (h : List.Forall₂ (NearCall Rel [id]) es es') :
    List.Forall₂ (NearCall (fun _ => Rel id) [id]) es es' := by
  refine h.imp fun e e' h => ?_
  rcases h with ⟨c, F, F', h1, h2, h3⟩ | ⟨c, F, F', h1, h2, h3⟩
  · refine .inl ⟨c, F, F', h1, h2, fun i hi => ?_⟩
    obtain rfl : i = id := by simpa using hi
    exact h3 i hi
  · refine .inr ⟨c, F, F', h1, h2, fun i hi => ?_⟩
    obtain rfl : i = id := by simpa using hi
    exact h3 i hi

/-- What a `DistanceMatrix` shows: the distances delivered up to errors of `ε`, `+inf` in the trivial match band of calculated columns, NaN elsewhere. -/
def BatchCase.ShowsWithin (B : BatchCase α) (ε : ℝ) (id : Nat) (p : DM ℝ) : Prop :=
  p.h = B.h ∧ p.w = B.w ∧ ∀ r < B.h, ∀ c < B.w,
    (B.done r c → ∃ y, p.m r c = .fin y ∧ |y - B.value id r c| ≤ ε) ∧
    (¬ B.done r c → B.column c → p.m r c = .pinf ∧ (r : Int) - c ≤ B.b ∧ (c : Int) - r ≤ B.b) ∧
    (¬ B.done r c → ¬ B.column c → p.m r c = .nan)

/-- **C88, matrices.** `DistanceMatrix` consumers of an `AnytimeCalculator` with any channels and generators, computing in floating point, after any sequence
of (partial, possibly interrupted) `calculate_diagonals` and `calculate_columns` calls: for exactly the pairs calculated so far the matrix holds a number
that differs from the distance by at most `B.floatErr`, `+inf` in the trivial match band of calculated columns, NaN everywhere else. -/
theorem C88_matrix (B : BatchCase α) (F : FloatEnv) (b : FloatBounds) (ids : List Nat) (hB : B.FloatOk F b (ids.map fun id => [id])) :
    ∃ cons', B.floatResult F DM.ops (ids.map fun id => (DM.new, [id])) = .ok cons' ∧
      List.Forall₂ (fun id c => c.2 = [id] ∧ B.ShowsWithin (B.floatErr F b id) id c.1) ids cons' := by
  refine BatchCase.floatConsumers DM.ops (fun _ => rfl) ids (fun id => ((DM.new : DM ℝ), [id])) hB
    (fun id p => B.ShowsWithin (B.floatErr F b id) id p) fun id hid => ?_
  have hlt := hB.id_lt (List.mem_map_of_mem hid) (by simp : id ∈ [id])
  obtain ⟨p, q, e1, e2, e3⟩ := hB.toAny.matrix_fed (F.ops B.memE B.memZ) hlt
  refine ⟨p, e1, fun es hes => ?_⟩
  obtain ⟨q', e4, e5⟩ := DM.calls_near (R := CloseVal (B.floatErr F b id)) (F.ops B.memE B.memZ) (nearCall_single hes)
    (p := p) (p' := p) ⟨rfl, rfl, fun _ _ => .inl rfl⟩ e2
  refine ⟨q', e4, e5.h_eq.trans e3.1, e5.w_eq.trans e3.2.1, fun r hr c hc => ?_⟩
  obtain ⟨f1, f2, f3⟩ := e3.2.2 r hr c hc
  have e6 := e5.entries r c
  have hno : ∀ {x y : Fl ℝ}, CloseVal (B.floatErr F b id) x y → (∀ z, x ≠ .fin z) → y = x := by
    rintro x y (⟨rfl, rfl⟩ | ⟨a, b, rfl, -⟩) h
    · rfl
    · exact absurd rfl (h a)
  refine ⟨fun h => ?_, fun h h' => ?_, fun h h' => ?_⟩
  · rw [f1 h] at e6
    rcases e6 with e6 | ⟨h1, -⟩ | ⟨x, y, h1, h2, -, h3⟩
    · exact ⟨_, e6, by simpa using hB.floatErr_nonneg id⟩
    · cases h1
    · cases h1
      exact ⟨y, h2, h3⟩
  · obtain ⟨f2, f4⟩ := f2 h h'
    rw [f2] at e6
    exact ⟨e6.elim (·) (fun e => hno e (by simp)), f4⟩
  · rw [f3 h h'] at e6
    exact e6.elim (·) (fun e => hno e (by simp))

end Verif
