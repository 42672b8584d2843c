import Verif.Lemmas.NearCases
import Verif.Props.BatchMatrix

/-!
# C76: `DistanceMatrix` in batch and streaming calculations, whatever the data
-/

namespace Verif
open Spec
variable {α G K : Type}

/-- Two matrices of the same shape with equal or related entries. -/
structure DM.Near (R : Fl K → Fl K → Prop) (p p' : DM K) : Prop where
  h_eq : p'.h = p.h
  w_eq : p'.w = p.w
  entries : ∀ i j, p'.m i j = p.m i j ∨ R (p.m i j) (p'.m i j)

theorem Mat.setMany_near {R : Fl K → Fl K → Prop} (idx : List (Nat × Nat)) : ∀ (v v' : List (Fl K)) (a a' : Mat (Fl K)),
    List.Forall₂ (fun x y => y = x ∨ R x y) v v' → (∀ i j, a' i j = a i j ∨ R (a i j) (a' i j)) →
    ∀ i j, a'.setMany (idx.zip v') i j = a.setMany (idx.zip v) i j ∨ R (a.setMany (idx.zip v) i j) (a'.setMany (idx.zip v') i j) := by
  induction idx with
  | nil => intro v v' a a' _ h; simpa [Mat.setMany] using h
  | cons x idx ih =>
    intro v v' a a' hv h
    cases hv with
    | nil => simpa [Mat.setMany] using h
    | @cons y y' v v' hy hv =>
      refine ih v v' (Mat.set a x.1 x.2 y) (Mat.set a' x.1 x.2 y') hv fun i j => ?_
      unfold Mat.set
      split
      · exact hy
      · exact h i j

theorem DM.broadcastTo_near {R : Fl K → Fl K → Prop} {n : Nat} {v v' u : List (Fl K)} (h : List.Forall₂ (fun x y => y = x ∨ R x y) v v')
    (hu : DM.broadcastTo n v = .ok u) : ∃ u', DM.broadcastTo n v' = .ok u' ∧ List.Forall₂ (fun x y => y = x ∨ R x y) u u' := by
  unfold DM.broadcastTo at hu ⊢
  rw [← h.length_eq]
  split at hu
  · rename_i hn
    cases hu
    exact ⟨v', by rw [if_pos hn], h⟩
  · rename_i hn
    rw [if_neg hn]
    match v, v', h, hu with
    | [x], [y], .cons hxy .nil, hu =>
      cases hu
      refine ⟨List.replicate n y, rfl, ?_⟩
      rw [List.forall₂_iff_get]
      exact ⟨by simp, fun i h1 h2 => by simpa using hxy⟩

/-- One call. -/
theorem DM.apply_near {R : Fl K → Fl K → Prop} (gops : GenOps G K) {id : Nat} {e e' : CEvent K} (he : NearEvent (fun _ => R) [id] e e') {p p' q : DM K} (hp : p.Near R p')
    (h : e.apply (DM.ops gops) p = .ok q) : ∃ q', e'.apply (DM.ops gops) p' = .ok q' ∧ q.Near R q' := by
  have hcol : ∀ (c : Int) (v v' : List (Fl K)), List.Forall₂ (fun x y => y = x ∨ R x y) v v' → p.processColumn c [v] = .ok q →
      ∃ q', p'.processColumn c [v'] = .ok q' ∧ q.Near R q' := by
    intro c v v' hv h
    unfold DM.processColumn at h ⊢
    simp only [show ∀ x : List (Fl K), pyGet [x] 0 = .ok x from fun _ => rfl, bind, Except.bind, pure, Except.pure, hp.h_eq, hp.w_eq] at h ⊢
    rw [← hv.length_eq]
    cases h1 : wrapIdx p.w c with
    | error e => rw [h1] at h; cases h
    | ok c' =>
      rw [h1] at h
      cases h2 : DM.broadcastTo (pyTo (List.range p.h) v.length).length v with
      | error e => simp only [h2] at h; cases h
      | ok u =>
        simp only [h2] at h
        cases h
        obtain ⟨u', e1, e2⟩ := DM.broadcastTo_near hv h2
        simp only [e1]
        exact ⟨_, rfl, rfl, rfl, Mat.setMany_near _ _ _ _ _ e2 hp.entries⟩
  rcases he with rfl | ⟨c, F, F', rfl, rfl, hF⟩
  · cases e' with
    | column c v =>
      cases v with
      | nil =>
        exfalso
        have h : (p.processColumn c []) = .ok q := h
        unfold DM.processColumn at h
        simp [show pyGet ([] : List (List (Fl K))) 0 = .error .indexError from rfl, bind, Except.bind] at h
      | cons v vs =>
        have h : p.processColumn c (v :: vs) = .ok q := h
        show ∃ q', p'.processColumn c (v :: vs) = .ok q' ∧ _
        have e : ∀ p : DM K, p.processColumn c (v :: vs) = p.processColumn c [v] := fun _ => by
          unfold DM.processColumn
          rw [show pyGet (v :: vs) 0 = .ok v by simp [pyGet], show pyGet [v] 0 = .ok v from rfl]
        rw [e] at h ⊢
        exact hcol c v v (List.forall₂_same.mpr fun _ _ => .inl rfl) h
    | diagonal d v =>
      have h : p.processDiagonal d v = .ok q := h
      show ∃ q', p'.processDiagonal d v = .ok q' ∧ _
      unfold DM.processDiagonal at h ⊢
      simp only [bind, Except.bind, pure, Except.pure, hp.h_eq, hp.w_eq] at h ⊢
      cases h1 : pyGet v 0 with
      | error e => rw [h1] at h; cases h
      | ok x =>
        rw [h1] at h
        simp only at h ⊢
        cases h2 : DM.broadcastTo (pyTo (diagIndices p.h p.w d).1 x.length).length x with
        | error e => simp only [h2] at h; cases h
        | ok u =>
          simp only [h2] at h ⊢
          cases h
          exact ⟨_, rfl, rfl, rfl, Mat.setMany_near _ _ _ _ _ (List.forall₂_same.mpr fun _ _ => .inl rfl) hp.entries⟩
    | shiftSeries n =>
      have h : Except.ok (p.shiftSeries n) = (.ok q : Except PyErr (DM K)) := h
      cases h
      refine ⟨_, rfl, ?_⟩
      unfold DM.shiftSeries
      split
      · exact hp
      · refine ⟨hp.h_eq, hp.w_eq, fun i j => ?_⟩
        simp only [hp.w_eq]
        split
        · exact .inl rfl
        · exact hp.entries _ _
    | shiftQuery n =>
      have h : Except.ok (p.shiftQuery n) = (.ok q : Except PyErr (DM K)) := h
      cases h
      refine ⟨_, rfl, ?_⟩
      unfold DM.shiftQuery
      split
      · exact hp
      · refine ⟨hp.h_eq, hp.w_eq, fun i j => ?_⟩
        simp only [hp.h_eq]
        split
        · exact .inl rfl
        · exact hp.entries _ _
  · exact hcol c (F id) (F' id) (hF id (by simp)) h

/-- Many calls. -/
theorem DM.feed_near {R : Fl K → Fl K → Prop} (gops : GenOps G K) {id : Nat} {es es' : List (CEvent K)} (he : List.Forall₂ (NearEvent (fun _ => R) [id]) es es') :
    ∀ {p p' q : DM K}, p.Near R p' → feed (DM.ops gops) p es = .ok q → ∃ q', feed (DM.ops gops) p' es' = .ok q' ∧ q.Near R q' := by
  induction he with
  | nil => intro p p' q hp h; cases h; exact ⟨p', rfl, hp⟩
  | @cons e e' es es' he _ ih =>
    intro p p' q hp h
    unfold feed at h ⊢
    cases h1 : e.apply (DM.ops gops) p with
    | error x => rw [h1] at h; cases h
    | ok p1 =>
      rw [h1] at h
      obtain ⟨p1', e1, e2⟩ := DM.apply_near gops he hp h1
      rw [e1]
      exact ih e2 h

theorem nearEvent_single {Rel : Nat → Fl K → Fl K → Prop} {id : Nat} {es es' : List (CEvent K)} (h : List.Forall₂ (NearEvent Rel [id]) es es') :
    List.Forall₂ (NearEvent (fun _ => Rel id) [id]) es es' := by
  refine h.imp fun e e' h => ?_
  rcases h with h | ⟨c, F, F', h1, h2, h3⟩
  · exact .inl h
  · refine .inr ⟨c, F, F', h1, h2, fun i hi => ?_⟩
    obtain rfl : i = id := by simpa using hi
    exact h3 i hi

theorem nearRel_fin {kinds : List (GenKind × Nat)} {id : Nat} {d v : Fl ℝ} (h : nearRel kinds id d v) (hd : ∀ x, d ≠ .fin x) : v = d := by
  unfold nearRel at h
  cases hk : kinds[id]? with
  | none => rw [hk] at h; exact Eq.symm h
  | some k =>
    obtain ⟨k, ch⟩ := k
    rw [hk] at h
    cases k with
    | euclidean _ => obtain ⟨x, hx, -⟩ := h; exact absurd hx (hd x)
    | znorm _ _ => exact Eq.symm h

theorem nearRel_refl (π : Nat → α → ℝ) (m : Nat) (kinds : List (GenKind × Nat)) (id : Nat) (hid : id < kinds.length) (a b : List α) :
    nearRel kinds id (.fin (streamValue π m kinds id a b)) (.fin (streamValue π m kinds id a b)) := by
  rw [← streamDist_value π m kinds id hid]
  unfold nearRel streamDist
  have h := List.getElem?_eq_getElem hid
  rw [h]
  exact GenKind.near_refl m _ _ _

/-- What a `DistanceMatrix` shows: values near the distances delivered, `+inf` in the trivial match band of calculated columns, NaN elsewhere. -/
def BatchCase.ShowsNear (B : BatchCase α) (id : Nat) (p : DM ℝ) : Prop :=
  p.h = B.h ∧ p.w = B.w ∧ ∀ r < B.h, ∀ c < B.w,
    (B.done r c → nearRel B.kinds id (.fin (B.value id r c)) (p.m r c)) ∧
    (¬ B.done r c → B.column c → p.m r c = .pinf ∧ (r : Int) - c ≤ B.b ∧ (c : Int) - r ≤ B.b) ∧
    (¬ B.done r c → ¬ B.column c → p.m r c = .nan)

/-- **C76, batch.** C68 for any data: `DistanceMatrix` consumers of an `AnytimeCalculator` with any channels and generators, after any sequence of (partial,
possibly interrupted) `calculate_diagonals` and `calculate_columns` calls. No call raises; for exactly the pairs calculated so far the matrix holds the
distance (z-normalised) or a value near it (Euclidean: `NearDist`), `+inf` in the trivial match band of calculated columns, NaN everywhere else. -/
theorem C76_batch (B : BatchCase α) (ids : List Nat) (hB : B.Any (ids.map fun id => [id])) :
    ∃ cons', B.result DM.ops (ids.map fun id => (DM.new, [id])) = .ok cons' ∧
      List.Forall₂ (fun id c => c.2 = [id] ∧ B.ShowsNear id c.1) ids cons' := by
  refine BatchCase.nearConsumers (B := B) DM.ops (fun _ => rfl) ids (fun id => ((DM.new : DM ℝ), [id])) hB (fun id p => B.ShowsNear id p) fun id hid => ?_
  have hlt := hB.id_lt (List.mem_map_of_mem hid) (by simp : id ∈ [id])
  obtain ⟨p, q, e1, e2, e3⟩ := hB.matrix_fed (GenKind.ops B.memE B.memZ) hlt
  refine ⟨p, e1, fun es hes => ?_⟩
  obtain ⟨q', e4, e5⟩ := DM.feed_near (R := nearRel B.kinds id) (GenKind.ops B.memE B.memZ) (nearEvent_single hes)
    (p := p) (p' := p) ⟨rfl, rfl, fun _ _ => .inl rfl⟩ e2
  refine ⟨q', e4, e5.h_eq.trans e3.1, e5.w_eq.trans e3.2.1, fun r hr c hc => ?_⟩
  obtain ⟨f1, f2, f3⟩ := e3.2.2 r hr c hc
  have e6 := e5.entries r c
  refine ⟨fun h => ?_, fun h h' => ?_, fun h h' => ?_⟩
  · rw [f1 h] at e6
    rcases e6 with e6 | e6
    · rw [e6]; exact nearRel_refl B.π B.m B.kinds id hlt _ _
    · exact e6
  · obtain ⟨f2, f4⟩ := f2 h h'
    rw [f2] at e6
    exact ⟨e6.elim (·) (fun e => nearRel_fin e (by simp)), f4⟩
  · rw [f3 h h'] at e6
    exact e6.elim (·) (fun e => nearRel_fin e (by simp))

/-- What a `DistanceMatrix` shows of the windows at the end: `+inf` in the trivial match band, a value near the distance outside for pairs that were calculated,
NaN for the others. -/
def StreamCase.ShowsNear (S : StreamCase α) (id : Nat) (p : DM ℝ) : Prop :=
  p.h = S.h ∧ p.w = S.w ∧ ∀ r < S.h, ∀ c < S.w,
    (S.last.done (r + (S.last.q.length - S.M.getD S.N)) (c + (S.last.s.length - S.N)) →
      r + S.m ≤ (lastN (S.M.getD S.N) S.last.q).length ∧ c + S.m ≤ (lastN S.N S.last.s).length ∧
      ((r : Int) - c ≤ S.b ∧ (c : Int) - r ≤ S.b → p.m r c = .pinf) ∧
      (¬ ((r : Int) - c ≤ S.b ∧ (c : Int) - r ≤ S.b) → nearRel S.kinds id
        (.fin (streamValue S.π S.m S.kinds id (((lastN S.N S.last.s).drop c).take S.m) (((lastN (S.M.getD S.N) S.last.q).drop r).take S.m))) (p.m r c))) ∧
    (¬ S.last.done (r + (S.last.q.length - S.M.getD S.N)) (c + (S.last.s.length - S.N)) → p.m r c = .nan)

/-- **C76, streaming.** C61 for any number of channels, generators and consumers, interrupted calls, and any data. -/
theorem C76_stream (S : StreamCase α) (ids : List Nat) (hS : S.Any (ids.map fun id => [id])) :
    ∃ cons', S.result DM.ops (ids.map fun id => (DM.new, [id])) = .ok cons' ∧
      List.Forall₂ (fun id c => c.2 = [id] ∧ S.ShowsNear id c.1) ids cons' := by
  refine StreamCase.nearConsumers (S := S) DM.ops (fun _ => rfl) ids (fun id => ((DM.new : DM ℝ), [id])) hS (fun id p => S.ShowsNear id p) fun id hid => ?_
  have hlt := hS.id_lt (List.mem_map_of_mem hid) (by simp : id ∈ [id])
  obtain ⟨p, q, e1, e2, e3, e3', e4⟩ := C44_distance_matrix S.h S.w (S.dels id) (fun d hd => (hS.dels_valid hlt d hd).1)
  refine ⟨p, e1, fun es hes => ?_⟩
  obtain ⟨q', e5, e6⟩ := DM.feed_near (R := nearRel S.kinds id) (GenKind.ops S.memE S.memZ) (nearEvent_single hes)
    (p := p) (p' := p) ⟨rfl, rfl, fun _ _ => .inl rfl⟩ (by rw [StreamCase.events_single, DM.feed_eq]; exact e2)
  refine ⟨q', e5, e6.h_eq.trans e3, e6.w_eq.trans e3', fun r hr c hc => ?_⟩
  have hfit := hS.fits id
  have hl := e4 r hr c hc
  rw [hfit.ss, hfit.qs] at hl
  have e7 := e6.entries r c
  refine ⟨fun h => ?_, fun h => ?_⟩
  · obtain ⟨d0, d1, d2⟩ := hfit.done _ _ h
    have hval : q.m r c = S.last.cell (streamDist S.π S.m S.kinds id) S.m S.b (r + (S.last.q.length - S.M.getD S.N)) (c + (S.last.s.length - S.N)) := by
      rcases hl with ⟨pre, post, h4, -⟩ | ⟨-, hno⟩
      · obtain ⟨r', c', -, hx⟩ := (hfit.mem ⟨((r + (S.last.q.length - S.M.getD S.N) : Nat) : Int), ((c + (S.last.s.length - S.N) : Nat) : Int), q.m r c⟩).mp (by rw [h4]; simp)
        simp only [Cell.mk.injEq, Int.natCast_inj] at hx
        rw [hx.2.2, hx.1, hx.2.1]
      · exact absurd ⟨rfl, rfl⟩ (hno _ ((hfit.mem _).mpr ⟨_, _, h, rfl⟩))
    have hcond : (((r + (S.last.q.length - S.M.getD S.N) : Nat) : Int) - ((c + (S.last.s.length - S.N) : Nat) : Int) ≤ S.b ∧
        ((c + (S.last.s.length - S.N) : Nat) : Int) - ((r + (S.last.q.length - S.M.getD S.N) : Nat) : Int) ≤ S.b) ↔ ((r : Int) - c ≤ S.b ∧ (c : Int) - r ≤ S.b) := by
      cases hM : S.M with
      | none =>
        rw [hfit.self hM]
        simp only [Option.getD_none]
        omega
      | some M' =>
        have : S.b = -1 := by unfold StreamCase.b bufferOf; rw [hM]; rfl
        rw [this]
        omega
    unfold MSt.cell at hval
    rw [if_congr hcond rfl rfl, streamDist_value _ _ _ _ hlt] at hval
    rw [lastN_length, lastN_length]
    refine ⟨by omega, by omega, fun hb => ?_, fun hb => ?_⟩
    · rw [if_pos hb] at hval
      rw [hval] at e7
      exact e7.elim (·) (fun e => nearRel_fin e (by simp))
    · rw [if_neg hb] at hval
      have w1 := win_lastN S.m S.N S.last.s c
      have w2 := win_lastN S.m (S.M.getD S.N) S.last.q r
      unfold win at w1 w2
      rw [w1, w2]
      rw [hval] at e7
      rcases e7 with e7 | e7
      · rw [e7]; exact nearRel_refl S.π S.m S.kinds id hlt _ _
      · exact e7
  · have hval : q.m r c = .nan := by
      rcases hl with ⟨pre, post, h4, -⟩ | ⟨hn, -⟩
      · exfalso
        obtain ⟨r', c', hd, hx⟩ := (hfit.mem ⟨((r + (S.last.q.length - S.M.getD S.N) : Nat) : Int), ((c + (S.last.s.length - S.N) : Nat) : Int), q.m r c⟩).mp (by rw [h4]; simp)
        simp only [Cell.mk.injEq, Int.natCast_inj] at hx
        rw [hx.1, hx.2.1] at h
        exact h hd
      · exact hn
    rw [hval] at e7
    exact e7.elim (·) (fun e => nearRel_fin e (by simp))

/-! ### Concrete cases -/

/-- `exBatch` on data with subsequences at squared distance 4e-16, which C68 excludes. -/
noncomputable def exTinyBatch : BatchCase (ℝ × ℝ) where
  memE := fun n => List.replicate n .nan
  memZ := ZN.zeroMem
  shuffle := List.reverse
  π := tinyChan
  m := 2
  s := exTiny
  query := none
  nDim := 2
  buffer := some 0
  kinds := exKinds
  needed := [2, 0, 1]
  us := [.diagonals 2, .columns 1 2, .diagonals 3]
  os := [.diagonals (fun n => n == 2) (.float (.fin 1)), .columns (fun _ => false) (some (.int 1)) (.int 2), .diagonals (fun _ => false) (.int 100)]

theorem exTinyBatch_any : exTinyBatch.Any [[0], [1], [2]] where
  memE := fun _ => List.length_replicate
  memZ := ZN.zeroMem_ok
  perm := List.reverse_perm
  args := by
    refine ⟨by decide, by simp [exTinyBatch, exTiny], by simp [exTinyBatch], by decide, by simp [exTinyBatch, exTiny], ?_, ?_, by decide, ?_⟩
    · simp [exTinyBatch, exKinds]
    · simp [exTinyBatch, exKinds]
    · intro id; simp [exTinyBatch]; omega
  calls := exBatch_calls

example : ∃ cons', exTinyBatch.result DM.ops [(DM.new, [0]), (DM.new, [1]), (DM.new, [2])] = .ok cons' ∧
    List.Forall₂ (fun id c => c.2 = [id] ∧ exTinyBatch.ShowsNear id c.1) [0, 1, 2] cons' := C76_batch exTinyBatch [0, 1, 2] exTinyBatch_any

example : ∃ cons', exStreamCase.result DM.ops [(DM.new, [2]), (DM.new, [0])] = .ok cons' ∧
    List.Forall₂ (fun id c => c.2 = [id] ∧ exStreamCase.ShowsNear id c.1) [2, 0] cons' :=
  C76_stream exStreamCase [2, 0] (exStreamCase_ok (idss := [[2], [0]]) (by simp) (by simp) (by simp)).toAny

example : exStreamCase.h = 2 ∧ exStreamCase.w = 3 ∧ exStreamCase.b = -1 := ⟨rfl, rfl, rfl⟩

/-- Squares in place of distances: 4e-16 is shown as 0, and the cached squares carry the error on to the pair of equal points, where the root of a negative
number is NaN. -/
example : ((batchAll (DM.ops (Eucl.genOps zeroMem (fun x : ℚ => x))) List.reverse [(Eucl.prepare zeroMem, 0)]
      [(DM.new, [0])] [0] 1 [[.fin (1 / 50000000), .fin 5]] (some [[.fin 0, .fin 5]]) none
      [.columns (fun _ => false) none (.float (.fin 1))]).map
        (fun l => l.map fun x => (List.range 2).map fun r => (List.range 2).map (x.1.m r))) =
      .ok [[[.fin 0, .fin 25], [.fin ((5 - 1 / 50000000) ^ 2), .nan]]] := by
  decide +kernel

end Verif
