import Verif.Lemmas.FilteredCases

/-!
# C80: distance matrices of data with holes

`DistanceMatrix` in batch and streaming calculations with generators that may be wrapped in filters, whatever the data.
-/

namespace Verif
open Spec
variable {α G : Type}

/-- The cells of diagonals were calculated. -/
theorem allDeliveries_diag {K : Type} {m : Nat} {selfJoin : Bool} {b : Int} {order : List Int} {D : List α → List α → Fl K} {s q : List α} {us : List BOp}
    {d : Int} {v : List (Fl K)} : ∀ {u : BSt}, .diag d v ∈ allDeliveries m selfJoin b order D s q u us → ∀ r c : Nat, (c : Int) - r = d →
      u.covered selfJoin b order us r c := by
  induction us with
  | nil => intro u h; cases h
  | cons op us ih =>
    intro u h r c hrc
    rcases List.mem_append.mp h with h | h
    · left
      cases op with
      | diagonals n =>
        obtain ⟨k, hk, hd⟩ := List.mem_flatMap.mp h
        rcases List.mem_cons.mp hd with hd | hd
        · left
          cases hd
          rw [hrc]; exact hk
        · cases selfJoin with
          | false => simp at hd
          | true =>
            right
            simp only [if_true, List.mem_singleton, Delivery.diag.injEq] at hd
            refine ⟨rfl, ?_⟩
            rw [show (r : Int) - c = k by omega]; exact hk
      | columns a e =>
        obtain ⟨i, -, hi⟩ := List.mem_map.mp h
        cases hi
    · exact .inr (ih h r c hrc)

/-- What a `DistanceMatrix` holds after the calls with the exact distances. -/
theorem FilteredBatch.Ok.matrix_fed {B : FilteredBatch α} {idss : List (List Nat)} (hB : B.Ok idss) (gops : GenOps G ℝ) (id : Nat) :
    ∃ p p', DM.initialise 1 (B.h : Int) (B.w : Int) = .ok p ∧ feed (DM.ops gops) p (B.exactEvents [id]) = .ok p' ∧
      p'.h = B.h ∧ p'.w = B.w ∧ ∀ r < B.h, ∀ c < B.w,
        (B.done r c → p'.m r c = B.dist id ((B.s.drop c).take B.m) ((B.q.drop r).take B.m)) ∧
        (¬ B.done r c → B.column c → p'.m r c = .pinf ∧ (r : Int) - c ≤ B.b ∧ (c : Int) - r ≤ B.b) ∧
        (¬ B.done r c → ¬ B.column c → p'.m r c = .nan) := by
  have hcells := hB.cells id
  obtain ⟨p, p', e1, e2, e3, e4, e5⟩ := C44_distance_matrix B.h B.w (B.dels id) hcells.valid
  refine ⟨p, p', e1, ?_, e3, e4, fun r hr c hc => ?_⟩
  · rw [FilteredBatch.exactEvents_single, DM.feed_eq]; exact e2
  have hns : ∀ d ∈ B.dels id, ∀ n, d ≠ .shiftSeries n ∧ d ≠ .shiftQuery n := no_shift _ _ _ _ _ _ _ _ _
  have e := Seen.run_noShift (B.dels id) hns (Seen.init (K := ℝ))
  have q0 : (Seen.init.run (B.dels id)).qs = 0 := by rw [e]; rfl
  have s0 : (Seen.init.run (B.dels id)).ss = 0 := by rw [e]; rfl
  have hmem : ∀ x, x ∈ (Seen.init.run (B.dels id)).cells ↔ ∃ d ∈ B.dels id, x ∈ d.cells 0 0 := by
    intro x
    rw [e]
    simp [Seen.init]
  have hval : ∀ x ∈ (Seen.init.run (B.dels id)).cells, ∃ r c : Nat, x.row = r ∧ x.col = c ∧ x.val = B.masked id r c := by
    intro x hx
    obtain ⟨r, c, -, -, rfl⟩ := (mem_run_cells (B.dels id) hcells.valid hcells.of).1 x hx
    exact ⟨r, c, rfl, rfl, rfl⟩
  have hl := e5 r hr c hc
  rw [q0, s0, Nat.add_zero, Nat.add_zero] at hl
  have hcolumn : B.column c → p'.m r c = B.masked id r c := by
    rintro ⟨a, e', h1, h2, h3⟩
    rcases hl with ⟨pre, post, h4, -⟩ | ⟨-, hno⟩
    · obtain ⟨r', c', g1, g2, g3⟩ := hval ⟨r, c, p'.m r c⟩ (by rw [h4]; simp)
      simp only [Int.natCast_inj] at g1 g2
      subst g1 g2
      exact g3
    · exfalso
      have hd := allDeliveries_column (m := B.m) (selfJoin := B.query.isNone) (b := B.b) (order := B.order) (D := B.dist id) (s := B.s) (q := B.q)
        (u := BSt.init) h1 h2 h3
      refine hno ⟨r, c, B.masked id r c⟩ ((hmem _).mpr ⟨_, hd, List.mem_map.mpr ⟨(B.masked id r c, r), List.mem_zipIdx_iff_getElem?.mpr ?_, rfl⟩⟩) ⟨rfl, rfl⟩
      have hr' : r < B.q.length + 1 - B.m := hr
      show (List.map _ _)[r]? = some _
      rw [List.getElem?_map, List.getElem?_range hr']
      rfl
  refine ⟨fun hd => ?_, fun hd hcol => ?_, fun hd hcol => ?_⟩
  · obtain ⟨d, h1, x, h2, h3, h4⟩ := hcells.complete r hr c hc hd
    rcases hl with ⟨pre, post, h5, -⟩ | ⟨-, hno⟩
    · obtain ⟨r', c', g1, g2, g3⟩ := hval ⟨r, c, p'.m r c⟩ (by rw [h5]; simp)
      simp only [Int.natCast_inj] at g1 g2
      subst g1 g2
      exact g3.trans (pairValue_far (hB.done_far hd))
    · exact absurd ⟨h3, h4⟩ (hno x ((hmem x).mpr ⟨d, h1, h2⟩))
  · have hm := hcolumn hcol
    have : (r : Int) - c ≤ B.b ∧ (c : Int) - r ≤ B.b := by
      by_contra hcon
      apply hd
      obtain ⟨a, e', h1, h2, h3⟩ := hcol
      exact covered_column h1 h2 h3 hcon
    refine ⟨?_, this⟩
    rw [hm]
    unfold FilteredBatch.masked pairValue
    rw [if_pos this]
  · rcases hl with ⟨pre, post, h5, -⟩ | ⟨h5, -⟩
    · exfalso
      obtain ⟨d, h1, h2⟩ := (hmem ⟨r, c, p'.m r c⟩).mp (by rw [h5]; simp)
      rcases mem_allDeliveries h1 with ⟨k, hk, hd'⟩ | ⟨c', a, e', g1, g2, g3, rfl⟩
      · obtain ⟨k', v, rfl⟩ : ∃ k' v, d = .diag k' v := by
          rcases hd' with rfl | ⟨-, rfl⟩ <;> exact ⟨_, _, rfl⟩
        obtain ⟨z, hz, hz'⟩ := List.mem_map.mp h2
        refine hd (allDeliveries_diag h1 r c ?_)
        simp only [Cell.mk.injEq] at hz'
        omega
      · obtain ⟨z, hz, hz'⟩ := List.mem_map.mp h2
        simp only [Cell.mk.injEq, Int.natCast_inj, Nat.add_zero] at hz'
        exact hcol ⟨a, e', g1, by omega, by omega⟩
    · exact h5

theorem filteredRel_inf {kinds : List (FKind × Nat)} {id : Nat} {d v : Fl ℝ} (h : filteredRel kinds id d v) (hd : ∀ x, d ≠ .fin x) : v = d := by
  unfold filteredRel at h
  cases hk : kinds[id]? with
  | none => rw [hk] at h; exact Eq.symm h
  | some k =>
    obtain ⟨k, ch⟩ := k
    rw [hk] at h
    have key : ∀ k : GenKind, k.Near d v → v = d := by
      intro k h
      cases k with
      | euclidean _ => obtain ⟨x, hx, -⟩ := h; exact absurd hx (hd x)
      | znorm _ _ => exact Eq.symm h
    cases k with
    | plain k => exact key k h
    | filtered p scale k =>
      rcases h with ⟨rfl, rfl⟩ | h
      · rfl
      · exact key k h

theorem filteredRel_marked {π : Nat → α → Fl ℝ} {m : Nat} {kinds : List (FKind × Nat)} {id : Nat} {a b : List α} {v : Fl ℝ}
    (h : filteredRel kinds id (filteredDist π m kinds id a b) v) (hm : filteredMarked π kinds id a ∨ filteredMarked π kinds id b) : v = .pinf := by
  rw [filteredDist_marked hm] at h
  exact filteredRel_inf h (by simp)

/-- What a `DistanceMatrix` shows of the pairs calculated: `+inf` if a point is marked, otherwise a value near the distance; `+inf` in the trivial match
band of calculated columns, NaN elsewhere. -/
def FilteredBatch.ShowsNear (B : FilteredBatch α) (id : Nat) (p : DM ℝ) : Prop :=
  p.h = B.h ∧ p.w = B.w ∧ ∀ r < B.h, ∀ c < B.w,
    (B.done r c → B.marked id r c → p.m r c = .pinf) ∧
    (B.done r c → ¬ B.marked id r c → filteredRel B.kinds id (.fin (B.value id r c)) (p.m r c)) ∧
    (¬ B.done r c → B.column c → p.m r c = .pinf ∧ (r : Int) - c ≤ B.b ∧ (c : Int) - r ≤ B.b) ∧
    (¬ B.done r c → ¬ B.column c → p.m r c = .nan)

/-- **C80, batch.** `DistanceMatrix` consumers of an `AnytimeCalculator` with any channels and generators, with and without filters, after any sequence of
(partial, possibly interrupted) `calculate_diagonals` and `calculate_columns` calls. No call raises; for exactly the pairs calculated so far the matrix holds
`+inf` if one of the subsequences contains a marked point, otherwise the distance (z-normalised) or a value near it (Euclidean), `+inf` in the trivial match
band of calculated columns, NaN everywhere else. -/
theorem C80_batch_matrix (B : FilteredBatch α) (ids : List Nat) (hB : B.Ok (ids.map fun id => [id])) :
    ∃ cons', B.result (DM.ops (FKind.ops B.memE B.memZ)) (ids.map fun id => (DM.new, [id])) = .ok cons' ∧
      List.Forall₂ (fun id c => c.2 = [id] ∧ B.ShowsNear id c.1) ids cons' := by
  refine FilteredBatch.consumersOf (B := B) nearMode DM.ops (fun _ => rfl) ids (fun id => ((DM.new : DM ℝ), [id])) hB.near (fun id p => B.ShowsNear id p)
    fun id hid => ?_
  have hlt := hB.id_lt (List.mem_map_of_mem hid) (by simp : id ∈ [id])
  obtain ⟨p, q, e1, e2, e3, e3', e4⟩ := hB.matrix_fed (FKind.ops B.memE B.memZ) id
  refine ⟨p, e1, fun es hes => ?_⟩
  rw [modeRel_near] at hes
  obtain ⟨q', e5, e6⟩ := DM.feed_near (R := filteredRel B.kinds id) (FKind.ops B.memE B.memZ) (nearEvent_single hes)
    (p := p) (p' := p) ⟨rfl, rfl, fun _ _ => .inl rfl⟩ e2
  refine ⟨q', e5, e6.h_eq.trans e3, e6.w_eq.trans e3', fun r hr c hc => ?_⟩
  obtain ⟨f1, f2, f3⟩ := e4 r hr c hc
  have e7 := e6.entries r c
  have hd : B.done r c → filteredRel B.kinds id (B.dist id ((B.s.drop c).take B.m) ((B.q.drop r).take B.m)) (q'.m r c) := by
    intro h
    rw [f1 h] at e7
    rcases e7 with e7 | e7
    · rw [e7]; exact filteredRel_refl B.π B.m B.kinds id _ _
    · exact e7
  refine ⟨fun h hm => filteredRel_marked (hd h) hm, fun h hm => ?_, fun h h' => ?_, fun h h' => ?_⟩
  · have := hd h
    rwa [show B.dist id ((B.s.drop c).take B.m) ((B.q.drop r).take B.m) = .fin (B.value id r c) from filteredDist_value hlt hm] at this
  · obtain ⟨f2, f4⟩ := f2 h h'
    rw [f2] at e7
    exact ⟨e7.elim (·) (fun e => filteredRel_inf e (by simp)), f4⟩
  · rw [f3 h h'] at e7
    exact e7.elim (·) (fun e => filteredRel_inf e (by simp))

/-- Does generator `id` mark a point in the pair (`r`, `c`) of subsequences of the windows at the end? -/
def FilteredStream.marked (S : FilteredStream α) (id r c : Nat) : Prop :=
  filteredMarked S.π S.kinds id (((lastN S.N S.last.s).drop c).take S.m) ∨ filteredMarked S.π S.kinds id (((lastN (S.M.getD S.N) S.last.q).drop r).take S.m)

/-- The distance of the pair, if it is not marked. -/
noncomputable def FilteredStream.value (S : FilteredStream α) (id r c : Nat) : ℝ :=
  filteredValue S.π S.m S.kinds id (((lastN S.N S.last.s).drop c).take S.m) (((lastN (S.M.getD S.N) S.last.q).drop r).take S.m)

/-- What a `DistanceMatrix` shows of the windows at the end, for pairs that were calculated: `+inf` in the trivial match band and if a point is marked,
otherwise a value near the distance; NaN for the other pairs. -/
def FilteredStream.ShowsNear (S : FilteredStream α) (id : Nat) (p : DM ℝ) : Prop :=
  p.h = S.h ∧ p.w = S.w ∧ ∀ r < S.h, ∀ c < S.w,
    (S.last.done (r + (S.last.q.length - S.M.getD S.N)) (c + (S.last.s.length - S.N)) →
      r + S.m ≤ (lastN (S.M.getD S.N) S.last.q).length ∧ c + S.m ≤ (lastN S.N S.last.s).length ∧
      (((r : Int) - c ≤ S.b ∧ (c : Int) - r ≤ S.b) ∨ S.marked id r c → p.m r c = .pinf) ∧
      (¬ ((r : Int) - c ≤ S.b ∧ (c : Int) - r ≤ S.b) → ¬ S.marked id r c → filteredRel S.kinds id (.fin (S.value id r c)) (p.m r c))) ∧
    (¬ S.last.done (r + (S.last.q.length - S.M.getD S.N)) (c + (S.last.s.length - S.N)) → p.m r c = .nan)

/-- **C80, streaming.** `DistanceMatrix` consumers of a `StreamingCalculator` with any channels and generators, with and without filters, after any sequence
of `append_series`, `append_query` and (possibly interrupted) `calculate_columns` calls. -/
theorem C80_stream_matrix (S : FilteredStream α) (ids : List Nat) (hS : S.Ok (ids.map fun id => [id])) :
    ∃ cons', S.result (DM.ops (FKind.ops S.memE S.memZ)) (ids.map fun id => (DM.new, [id])) = .ok cons' ∧
      List.Forall₂ (fun id c => c.2 = [id] ∧ S.ShowsNear id c.1) ids cons' := by
  refine FilteredStream.consumersOf (S := S) nearMode DM.ops (fun _ => rfl) ids (fun id => ((DM.new : DM ℝ), [id])) hS.near (fun id p => S.ShowsNear id p)
    fun id hid => ?_
  have hlt := hS.id_lt (List.mem_map_of_mem hid) (by simp : id ∈ [id])
  obtain ⟨p, q, e1, e2, e3, e3', e4⟩ := C44_distance_matrix S.h S.w (S.dels id) (fun d hd => (hS.dels_valid hlt d hd).1)
  refine ⟨p, e1, fun es hes => ?_⟩
  rw [modeRel_near] at hes
  obtain ⟨q', e5, e6⟩ := DM.feed_near (R := filteredRel S.kinds id) (FKind.ops S.memE S.memZ) (nearEvent_single hes)
    (p := p) (p' := p) ⟨rfl, rfl, fun _ _ => .inl rfl⟩ (by rw [FilteredStream.exactEvents_single, DM.feed_eq]; exact e2)
  refine ⟨q', e5, e6.h_eq.trans e3, e6.w_eq.trans e3', fun r hr c hc => ?_⟩
  have hfit := hS.fits id
  have hl := e4 r hr c hc
  rw [hfit.ss, hfit.qs] at hl
  have e7 := e6.entries r c
  refine ⟨fun h => ?_, fun h => ?_⟩
  · obtain ⟨d0, d1, d2⟩ := hfit.done _ _ h
    have hval : q.m r c = S.last.cell (S.dist id) S.m S.b (r + (S.last.q.length - S.M.getD S.N)) (c + (S.last.s.length - S.N)) := by
      rcases hl with ⟨pre, post, h4, -⟩ | ⟨-, hno⟩
      · obtain ⟨r', c', -, hx⟩ := (hfit.mem ⟨((r + (S.last.q.length - S.M.getD S.N) : Nat) : Int), ((c + (S.last.s.length - S.N) : Nat) : Int), q.m r c⟩).mp (by rw [h4]; simp)
        simp only [Cell.mk.injEq, Int.natCast_inj] at hx
        rw [hx.2.2, hx.1, hx.2.1]
      · exact absurd ⟨rfl, rfl⟩ (hno _ ((hfit.mem _).mpr ⟨_, _, h, rfl⟩))
    have hcond : (((r + (S.last.q.length - S.M.getD S.N) : Nat) : Int) - ((c + (S.last.s.length - S.N) : Nat) : Int) ≤ S.b ∧
        ((c + (S.last.s.length - S.N) : Nat) : Int) - ((r + (S.last.q.length - S.M.getD S.N) : Nat) : Int) ≤ S.b) ↔ ((r : Int) - c ≤ S.b ∧ (c : Int) - r ≤ S.b) := by
      cases hM : S.M with
      | none =>
        rw [hfit.self hM]
        simp only [Option.getD_none]
        omega
      | some M' =>
        have : S.b = -1 := by unfold FilteredStream.b bufferOf; rw [hM]; rfl
        rw [this]
        omega
    unfold MSt.cell at hval
    rw [if_congr hcond rfl rfl] at hval
    rw [lastN_length, lastN_length]
    have w1 := win_lastN S.m S.N S.last.s c
    have w2 := win_lastN S.m (S.M.getD S.N) S.last.q r
    unfold win at w1 w2
    rw [← w1, ← w2] at hval
    have hrel : ¬ ((r : Int) - c ≤ S.b ∧ (c : Int) - r ≤ S.b) → filteredRel S.kinds id
        (S.dist id (((lastN S.N S.last.s).drop c).take S.m) (((lastN (S.M.getD S.N) S.last.q).drop r).take S.m)) (q'.m r c) := by
      intro hb
      rw [if_neg hb] at hval
      rw [hval] at e7
      rcases e7 with e7 | e7
      · rw [e7]; exact filteredRel_refl S.π S.m S.kinds id _ _
      · exact e7
    refine ⟨by omega, by omega, fun hb => ?_, fun hb hm => ?_⟩
    · by_cases hb' : (r : Int) - c ≤ S.b ∧ (c : Int) - r ≤ S.b
      · rw [if_pos hb'] at hval
        rw [hval] at e7
        exact e7.elim (·) (fun e => filteredRel_inf e (by simp))
      · exact filteredRel_marked (hrel hb') (hb.resolve_left hb')
    · have := hrel hb
      rwa [show S.dist id (((lastN S.N S.last.s).drop c).take S.m) (((lastN (S.M.getD S.N) S.last.q).drop r).take S.m) = .fin (S.value id r c) from
        filteredDist_value hlt hm] at this
  · have hval : q.m r c = .nan := by
      rcases hl with ⟨pre, post, h4, -⟩ | ⟨hn, -⟩
      · exfalso
        obtain ⟨r', c', hd, hx⟩ := (hfit.mem ⟨((r + (S.last.q.length - S.M.getD S.N) : Nat) : Int), ((c + (S.last.s.length - S.N) : Nat) : Int), q.m r c⟩).mp (by rw [h4]; simp)
        simp only [Cell.mk.injEq, Int.natCast_inj] at hx
        rw [hx.1, hx.2.1] at h
        exact h hd
      · exact hn
    rw [hval] at e7
    exact e7.elim (·) (fun e => filteredRel_inf e (by simp))

/-! ### Concrete cases -/

example : ∃ cons', exFilteredBatch.result (DM.ops (FKind.ops exFilteredBatch.memE exFilteredBatch.memZ)) [(DM.new, [0]), (DM.new, [1]), (DM.new, [2])] = .ok cons' ∧
    List.Forall₂ (fun id c => c.2 = [id] ∧ exFilteredBatch.ShowsNear id c.1) [0, 1, 2] cons' :=
  C80_batch_matrix exFilteredBatch [0, 1, 2] (exFilteredBatch_ok (by simp) (by intro id hid; simp; omega))

example : ∃ cons', exFilteredStream.result (DM.ops (FKind.ops exFilteredStream.memE exFilteredStream.memZ)) [(DM.new, [0]), (DM.new, [1]), (DM.new, [2])] = .ok cons' ∧
    List.Forall₂ (fun id c => c.2 = [id] ∧ exFilteredStream.ShowsNear id c.1) [0, 1, 2] cons' :=
  C80_stream_matrix exFilteredStream [0, 1, 2] (exFilteredStream_ok (by simp) (by intro id hid; simp; omega))

/-- Squares in place of distances, one filtered generator, series 1 5 NaN 2 6, `m = 1`: the first two diagonals, then column 2. -/
example : (batchAll (DM.ops (Filter.Batch.ops (Eucl.genOps zeroMem (fun x : ℚ => x)))) List.reverse
      [(fun m s q => Filter.prepare (Eucl.prepare zeroMem) (fun l _ => l.map fun x => !x.isFinite) m.toNat s q, 0)]
      [(DM.new, [0])] [0] 1 [[.fin 1, .fin 5, .nan, .fin 2, .fin 6]] none (some 0)
      [.diagonals (fun _ => false) (.int 2), .columns (fun _ => false) (some (.int 2)) (.int 3)]).map
        (fun l => l.map fun x => (List.range 5).map fun r => (List.range 5).map (x.1.m r)) =
    .ok [[[.nan, .nan, .pinf, .fin 1, .fin 25], [.nan, .nan, .pinf, .nan, .fin 1], [.nan, .nan, .pinf, .nan, .nan], [.fin 1, .nan, .pinf, .nan, .nan],
      [.fin 25, .fin 1, .pinf, .nan, .nan]]] := by
  decide +kernel

end Verif
