import Verif.Lemmas.FilteredCases

/-!
# C79: matrix profiles of data with holes

`MatrixProfileLR` in batch calculations and `ShiftingMatrixProfileLR` in streaming calculations with generators that may be wrapped in filters.
-/

namespace Verif
open Spec
variable {α : Type}

/-- **C79, batch.** `MatrixProfileLR` consumers of an `AnytimeCalculator` with any channels and generators, with and without filters, after any
sequence of (partial, possibly interrupted) `calculate_diagonals` and `calculate_columns` calls: no call raises, and at any moment the profile of a consumer
holds for every subsequence of the series the nearest subsequence of the query among the pairs calculated so far of which neither contains a marked point
(`+inf` if there are none, in particular for marked subsequences). Partial for Euclidean generators when columns are calculated: no tiny
distances in the data with 0 at the marked points (`C79_hole_wrong`). -/
theorem C79_batch_profile_partial (B : FilteredBatch α) (ids : List Nat) (hB : B.Fine exactMode (ids.map fun id => [id])) :
    ∃ cons', B.result (MP.ops (FKind.ops B.memE B.memZ)) (ids.map fun id => (MP.new, [id])) = .ok cons' ∧
      List.Forall₂ (fun id c => c.2 = [id] ∧ IsProfile (B.value id) B.h B.w (fun r c => B.done r c ∧ ¬ B.marked id r c) c.1) ids cons' := by
  refine FilteredBatch.exactConsumers (B := B) MP.ops (fun _ => rfl) ids (fun id => ((MP.new : MP ℝ), [id])) hB
    (fun id p => IsProfile (B.value id) B.h B.w (fun r c => B.done r c ∧ ¬ B.marked id r c) p) fun id hid => ?_
  have hlt := hB.id_lt (List.mem_map_of_mem hid) (by simp : id ∈ [id])
  have hcells := hB.cells id
  have hns : ∀ d ∈ B.dels id, ∀ n, d ≠ .shiftSeries n ∧ d ≠ .shiftQuery n := no_shift _ _ _ _ _ _ _ _ _
  have hmark : ∀ r c, B.marked id r c → B.masked id r c = .pinf := by
    intro r c h
    unfold FilteredBatch.masked pairValue
    split
    · rfl
    · exact filteredDist_marked h
  obtain ⟨p1, p2, n1, n2, n3, n4, n5⟩ := MP.nearest (B.value id) B.h B.w (B.masked id) (fun r c => B.done r c ∧ ¬ B.marked id r c) (by
    intro r hr c hc
    by_cases hm : B.marked id r c
    · exact .inr ⟨hmark r c hm, fun h => h.2 hm⟩
    by_cases hf : (r : Int) - c ≤ B.b ∧ (c : Int) - r ≤ B.b
    · right
      exact ⟨by unfold FilteredBatch.masked pairValue; rw [if_pos hf], fun h => hB.done_far h.1 hf⟩
    · left
      unfold FilteredBatch.masked
      rw [pairValue_far hf]
      exact filteredDist_value hlt hm) (B.dels id) hcells.valid hcells.of (by
    intro d hd x hx
    rcases hcells.sound d hd x hx with h | h
    · exact .inl h
    by_cases hm : B.marked id x.row.toNat x.col.toNat
    · left
      obtain ⟨r, c, -, -, rfl⟩ := (mem_run_cells (B.dels id) hcells.valid hcells.of).1 x (by
        rw [Seen.run_noShift _ hns Seen.init]
        exact List.mem_append_right _ (List.mem_flatMap.mpr ⟨d, hd, hx⟩))
      exact hmark r c (by simpa using hm)
    · exact .inr ⟨h, hm⟩) (fun r hr c hc h => hcells.complete r hr c hc h.1)
  refine ⟨p1, p2, n1, ?_, ⟨n3, n4⟩, n5⟩
  rw [FilteredBatch.exactEvents_single, MP.feed_eq _ _ hns]
  exact n2

/-- **C79, batch, z-normalised**: nothing is required of the data. -/
theorem C79_batch_profile_znorm (B : FilteredBatch α) (ids : List Nat) (hB : B.Ok (ids.map fun id => [id]))
    (hz : ∀ k ∈ B.kinds, ∃ noise scale, k.1.inner = .znorm noise scale) :
    ∃ cons', B.result (MP.ops (FKind.ops B.memE B.memZ)) (ids.map fun id => (MP.new, [id])) = .ok cons' ∧
      List.Forall₂ (fun id c => c.2 = [id] ∧ IsProfile (B.value id) B.h B.w (fun r c => B.done r c ∧ ¬ B.marked id r c) c.1) ids cons' :=
  C79_batch_profile_partial B ids ⟨hB, fun _ k hk => FKind.good_znorm (hz k hk) _ _ _⟩

/-- **C79, streaming.** `ShiftingMatrixProfileLR` consumers (new or at least never shifted) of a `StreamingCalculator` with any channels and generators,
with and without filters, after any sequence of `append_series`, `append_query` and (possibly interrupted) `calculate_columns` calls: no call raises, and
every consumer shows the nearest neighbours among all pairs calculated so far, where pairs with a marked point are at distance `+inf`. Partial for Euclidean
generators: no tiny distances in the data with 0 at the marked points (`C63_euclidean_wrong`). -/
theorem C79_stream_profile_partial (S : FilteredStream α) (memF : Nat → List (Fl ℝ)) (memI : Nat → List Int) (hF : ∀ n, (memF n).length = n)
    (hI : ∀ n, (memI n).length = n) (scale : ℚ) (h1 : 1 ≤ scale) (h2 : scale ≤ 2) (consumers : List (ShiftingMP ℝ × Nat))
    (hfresh : ∀ c ∈ consumers, c.1.seriesShift = 0 ∧ c.1.queryShift = 0) (hS : S.Fine exactMode (consumers.map fun c => [c.2])) :
    ∃ cons', S.result (ShiftingMP.ops memF memI scale (FKind.ops S.memE S.memZ)) (consumers.map fun c => (c.1, [c.2])) = .ok cons' ∧
      List.Forall₂ (fun c c' => c'.2 = [c.2] ∧ ShowsProfile (filteredDist S.π S.m S.kinds c.2) S.m S.N S.b S.last c'.1) consumers cons' := by
  refine FilteredStream.exactConsumers (S := S) (ShiftingMP.ops memF memI scale) (fun _ => rfl) consumers (fun c => (c.1, [c.2])) hS
    (fun c p => ShowsProfile (filteredDist S.π S.m S.kinds c.2) S.m S.N S.b S.last p) fun c hc => ?_
  have hlt := hS.id_lt (List.mem_map_of_mem hc) (by simp : c.2 ∈ [c.2])
  obtain ⟨p, p', a1, a2, a3⟩ := shifting_feed (FKind.ops S.memE S.memZ) memF memI hF hI scale h1 h2 S.m S.N S.M hS.args.pos hS.args.series hS.args.query
    S.b S.dist c.2 (filteredDist_ne_nan S.π S.m S.kinds c.2 hlt) S.us hS.valid
  exact ⟨p, p', a1 c.1 (hfresh c hc) 1, a2, a3⟩

/-- **C79, streaming, z-normalised**: nothing is required of the data. -/
theorem C79_stream_profile_znorm (S : FilteredStream α) (memF : Nat → List (Fl ℝ)) (memI : Nat → List Int) (hF : ∀ n, (memF n).length = n)
    (hI : ∀ n, (memI n).length = n) (scale : ℚ) (h1 : 1 ≤ scale) (h2 : scale ≤ 2) (consumers : List (ShiftingMP ℝ × Nat))
    (hfresh : ∀ c ∈ consumers, c.1.seriesShift = 0 ∧ c.1.queryShift = 0) (hS : S.Ok (consumers.map fun c => [c.2]))
    (hz : ∀ k ∈ S.kinds, ∃ noise scale, k.1.inner = .znorm noise scale) :
    ∃ cons', S.result (ShiftingMP.ops memF memI scale (FKind.ops S.memE S.memZ)) (consumers.map fun c => (c.1, [c.2])) = .ok cons' ∧
      List.Forall₂ (fun c c' => c'.2 = [c.2] ∧ ShowsProfile (filteredDist S.π S.m S.kinds c.2) S.m S.N S.b S.last c'.1) consumers cons' := by
  refine C79_stream_profile_partial S memF memI hF hI scale h1 h2 consumers hfresh ⟨hS, ?_⟩
  generalize (MSt.init : MSt α) = u
  generalize S.us = us
  induction us generalizing u with
  | nil => trivial
  | cons x us ih => exact ⟨fun _ _ k hk => FKind.good_znorm (hz k hk) _ _ _, ih _⟩

/-! ### Concrete cases -/

theorem exFKinds_good {s q : List (ℝ × Fl ℝ)} (hs : ∀ x ∈ s, x ∈ exHoles ++ [(9, .ninf), (0, .fin 5)]) (hq : ∀ x ∈ q, x ∈ exHoles ++ [(9, .ninf), (0, .fin 5)]) :
    ∀ k ∈ exFKinds, k.1.Good exactMode 2 (s.map (holeChan k.2)) (q.map (holeChan k.2)) := by
  have key : ∀ x ∈ exHoles ++ [(9, .ninf), (0, .fin 5)], ∃ z : ℤ, cleanPoint (fun x : Fl ℝ => !x.isFinite) (holeChan 1 x) = z := by
    intro x hx
    simp only [exHoles, List.cons_append, List.nil_append, List.mem_cons, List.not_mem_nil, or_false] at hx
    rcases hx with rfl | rfl | rfl | rfl | rfl | rfl | rfl | rfl | rfl | rfl
    exacts [⟨2, by simp [cleanPoint, holeChan, Fl.isFinite]⟩, ⟨0, by simp [cleanPoint, holeChan, Fl.isFinite]⟩, ⟨0, by simp [cleanPoint, holeChan, Fl.isFinite]⟩,
      ⟨1, by simp [cleanPoint, holeChan, Fl.isFinite]⟩, ⟨3, by simp [cleanPoint, holeChan, Fl.isFinite]⟩, ⟨0, by simp [cleanPoint, holeChan, Fl.isFinite]⟩,
      ⟨6, by simp [cleanPoint, holeChan, Fl.isFinite]⟩, ⟨1, by simp [cleanPoint, holeChan, Fl.isFinite]⟩, ⟨0, by simp [cleanPoint, holeChan, Fl.isFinite]⟩,
      ⟨5, by simp [cleanPoint, holeChan, Fl.isFinite]⟩]
  intro k hk
  simp only [exFKinds, List.mem_cons, List.not_mem_nil, or_false] at hk
  rcases hk with rfl | rfl | rfl
  · refine noTiny_int _ _ _ ?_ ?_ <;>
    · intro x hx
      obtain ⟨y, hy, rfl⟩ := List.mem_map.mp hx
      obtain ⟨z, hz, rfl⟩ := List.mem_map.mp hy
      exact key z (by first | exact hs z hz | exact hq z hz)
  · trivial
  · trivial

theorem exFilteredBatch_fine {idss : List (List Nat)} (h : ∀ ids ∈ idss, ∀ id ∈ ids, id < 3) (h0 : ∀ id < 3, ∃ ids ∈ idss, id ∈ ids) :
    exFilteredBatch.Fine exactMode idss := by
  refine ⟨exFilteredBatch_ok h h0, fun _ => exFKinds_good ?_ ?_⟩ <;>
  · intro x hx
    exact List.mem_append_left _ (List.mem_of_mem_take hx)

example : ∃ cons', exFilteredBatch.result (MP.ops (FKind.ops exFilteredBatch.memE exFilteredBatch.memZ)) [(MP.new, [0]), (MP.new, [1]), (MP.new, [2])] = .ok cons' ∧
    List.Forall₂ (fun id c => c.2 = [id] ∧ IsProfile (exFilteredBatch.value id) exFilteredBatch.h exFilteredBatch.w
      (fun r c => exFilteredBatch.done r c ∧ ¬ exFilteredBatch.marked id r c) c.1) [0, 1, 2] cons' :=
  C79_batch_profile_partial exFilteredBatch [0, 1, 2] (exFilteredBatch_fine (by simp) (by intro id hid; simp; omega))

/-- The pair of positions 0 and 3 is not marked and was calculated, the pair of positions 0 and 1 is marked by generator 0 but not by generator 1. -/
example : exFilteredBatch.done 0 3 ∧ ¬ exFilteredBatch.marked 0 0 3 ∧ exFilteredBatch.marked 0 0 1 ∧ ¬ exFilteredBatch.marked 1 0 1 := by
  refine ⟨?_, ?_, ?_, ?_⟩
  · simp [FilteredBatch.done, exFilteredBatch, BSt.covered, BSt.covers, FilteredBatch.order, batchOrder, FilteredBatch.b, batchBuffer, BSt.init, exHoles]
    decide
  · simp [FilteredBatch.marked, filteredMarked, FKind.Marked, exFilteredBatch, exFKinds, exHoles, holeChan, FilteredBatch.q, Fl.isFinite]
  · simp [FilteredBatch.marked, filteredMarked, FKind.Marked, exFilteredBatch, exFKinds, exHoles, holeChan, FilteredBatch.q, Fl.isFinite]
  · simp [FilteredBatch.marked, filteredMarked, FKind.Marked, exFilteredBatch, exFKinds]

theorem exFilteredStream_fine {idss : List (List Nat)} (h : ∀ ids ∈ idss, ∀ id ∈ ids, id < 3) (h0 : ∀ id < 3, ∃ ids ∈ idss, id ∈ ids) :
    exFilteredStream.Fine exactMode idss := by
  refine ⟨exFilteredStream_ok h h0, ?_⟩
  have key : ∀ s q : List (ℝ × Fl ℝ), (∀ x ∈ s, x ∈ exHoles ++ [(9, .ninf), (0, .fin 5)]) → (∀ x ∈ q, x ∈ exHoles ++ [(9, .ninf), (0, .fin 5)]) →
      ∀ k ∈ exFKinds, k.1.Good exactMode 2 (lastN 4 (s.map (holeChan k.2))) (lastN 3 (q.map (holeChan k.2))) := by
    intro s q hs hq
    unfold lastN
    simp only [← List.map_drop, List.length_map]
    exact exFKinds_good (fun x hx => hs x (List.mem_of_mem_drop hx)) (fun x hx => hq x (List.mem_of_mem_drop hx))
  refine ⟨?_, ?_, ?_, ?_, ?_, ?_, ?_, ?_, trivial⟩ <;> intro k hk <;>
  · refine key _ _ ?_ ?_ <;>
    · intro x hx
      simp [MSt.step, MSt.init, exFilteredStream, exHoles] at hx ⊢
      try tauto

noncomputable def exRealProfile : ShiftingMP ℝ :=
  let f : RB (Fl ℝ) := ⟨[], [.fin 9], 1, 0, 1, .window 0 1⟩
  let i : RB Int := ⟨[], [5], 1, 0, 1, .window 0 1⟩
  ⟨i, ⟨f, i⟩, ⟨f, i⟩, 0, 0⟩

example : ∃ cons', exFilteredStream.result (ShiftingMP.ops (fun n => List.replicate n .nan) (fun n => List.replicate n 77) (3 / 2)
      (FKind.ops exFilteredStream.memE exFilteredStream.memZ)) [(exRealProfile, [0]), (exRealProfile, [1]), (exRealProfile, [2])] = .ok cons' ∧
    List.Forall₂ (fun c c' => c'.2 = [c.2] ∧ ShowsProfile (filteredDist exFilteredStream.π exFilteredStream.m exFilteredStream.kinds c.2) exFilteredStream.m
      exFilteredStream.N exFilteredStream.b exFilteredStream.last c'.1) [(exRealProfile, 0), (exRealProfile, 1), (exRealProfile, 2)] cons' :=
  C79_stream_profile_partial exFilteredStream _ _ (fun _ => List.length_replicate) (fun _ => List.length_replicate) (3 / 2) (by norm_num) (by norm_num)
    [(exRealProfile, 0), (exRealProfile, 1), (exRealProfile, 2)] (by simp [exRealProfile]) (exFilteredStream_fine (by simp) (by intro id hid; simp; omega))

/-- Squares in place of distances, one filtered generator, series 1 5 NaN 2 6 1, `m = 2`, all diagonals: positions 1 and 2 contain the NaN and have no
neighbours; the others are compared among each other only. -/
example : (batchAll (MP.ops (Filter.Batch.ops (Eucl.genOps zeroMem (fun x : ℚ => x)))) List.reverse
      [(fun m s q => Filter.prepare (Eucl.prepare zeroMem) (fun l _ => l.map fun x => !x.isFinite) m.toNat s q, 0)]
      [(MP.new, [0])] [0] 2 [[.fin 1, .fin 5, .nan, .fin 2, .fin 6, .fin 1]] none (some 0)
      [.diagonals (fun _ => false) (.float (.fin 1))]).map
        (fun l => l.map fun x => (MP.merged x.1.left x.1.right, MP.mergedIdx x.1.left x.1.right x.1.leftIdx x.1.rightIdx)) =
    .ok [([.fin 2, .pinf, .pinf, .fin 2, .fin 41], [3, -1, -1, 0, 0])] := by
  decide +kernel

/-- Why `C79_batch_profile_partial` speaks of 0 at the marked points: series 1e-8 5 and query NaN 5, `m = 1`, squares in place of distances. No two points
are close but different, yet by columns the wrapped generator compares 1e-8 to the 0 that stands for the NaN, and the error spoils the next column, where the
equal points 5 and 5 are not found. By diagonals they are. -/
theorem C79_hole_wrong :
    ([.columns (fun _ => false) none (.float (.fin 1)), .diagonals (fun _ => false) (.float (.fin 1))] : List Anytime.Op).map (fun op =>
      (batchAll (MP.ops (Filter.Batch.ops (Eucl.genOps zeroMem (fun x : ℚ => x)))) List.reverse
        [(fun m s q => Filter.prepare (Eucl.prepare zeroMem) (fun l _ => l.map fun x => !x.isFinite) m.toNat s q, 0)]
        [(MP.new, [0])] [0] 1 [[.fin (1 / 100000000), .fin 5]] (some [[.nan, .fin 5]]) none [op]).map
          (fun l => l.map fun x => (MP.merged x.1.left x.1.right, MP.mergedIdx x.1.left x.1.right x.1.leftIdx x.1.rightIdx))) =
    [.ok [([.fin ((5 - 1 / 100000000) ^ 2), .pinf], [1, -1])], .ok [([.fin ((5 - 1 / 100000000) ^ 2), .fin 0], [1, 1])]] := by
  decide +kernel

/-- `C79_batch_profile_znorm`. -/
example := C79_batch_profile_znorm (exFilteredZ exFilteredBatch.us exFilteredBatch.os) [1, 0] (exFilteredZ_ok exBatch_calls (by simp) (by intro id hid; simp; omega)) (exFilteredZ_znorm _ _)

/-- The stream of `exFilteredStream` with its z-normalised generators. -/
noncomputable def exFilteredZStream : FilteredStream (ℝ × Fl ℝ) := {exFilteredStream with kinds := exFKinds.drop 1, needed := [1, 0]}

theorem exFilteredZStream_ok {idss : List (List Nat)} (h : ∀ ids ∈ idss, ∀ id ∈ ids, id < 2) (h0 : ∀ id < 2, ∃ ids ∈ idss, id ∈ ids) : exFilteredZStream.Ok idss :=
  have a := exFilteredStream_ok (idss := [[0], [1], [2]]) (by simp) (by intro id hid; simp; omega)
  { memE := a.memE, memZ := a.memZ, memB := a.memB, calls := a.calls, valid := a.valid,
    filters := fun k hk => exFKinds_ok k (List.mem_of_mem_drop hk)
    data := fun v hv k hk => a.data v hv k (List.mem_of_mem_drop hk)
    args := by
      refine ⟨by simp [exFilteredZStream, exFilteredStream], by simp [exFilteredZStream, exFilteredStream], by simp [exFilteredZStream, exFilteredStream],
        by simp [exFilteredZStream, exFilteredStream], ?_, ?_, ?_, by simp [exFilteredZStream], ?_⟩
      · simp [exFilteredZStream, exFilteredStream, innerKinds, exFKinds, FKind.inner, GenKind.ScaleOk]; norm_num
      · simp [exFilteredZStream, exFilteredStream, innerKinds, exFKinds]
      · simpa [exFilteredZStream, innerKinds, exFKinds] using h
      · intro id
        have : id ∈ exFilteredZStream.needed ↔ id < 2 := by simp [exFilteredZStream]; omega
        rw [this]
        exact ⟨h0 id, fun ⟨ids, h1, h2⟩ => h ids h1 id h2⟩ }

/-- `C79_stream_profile_znorm`. -/
example := C79_stream_profile_znorm exFilteredZStream (fun n => List.replicate n .nan) (fun n => List.replicate n 77) (fun _ => List.length_replicate) (fun _ => List.length_replicate) (3 / 2) (by norm_num) (by norm_num)
  [(exRealProfile, 0), (exRealProfile, 1)] (by simp [exRealProfile]) (exFilteredZStream_ok (by simp) (by intro id hid; simp; omega)) (by simp [exFilteredZStream, exFKinds, FKind.inner])

end Verif
