import Verif.Props.FilteredCounts
import Verif.Props.BatchRadius

/-!
# C94: radius profiles and separated counts of data with holes

`RadiusProfile0`, `RadiusProfile` and `DistancedThresholdCounter` in batch calculations of columns with generators that may be wrapped in filters.
-/

namespace Verif
open Spec
variable {α : Type}

namespace FilteredBatch

/-- How often column `c` was calculated. -/
def times (B : FilteredBatch α) (c : Nat) : Nat := B.us.countP fun
  | .columns a e => decide (a ≤ c ∧ c < e)
  | .diagonals _ => false

/-- Column `c` of the matrix of distances of generator `id`, with `+inf` in the trivial match band and for pairs with a marked point. -/
noncomputable def columnOf (B : FilteredBatch α) (id c : Nat) : List (Fl ℝ) := (List.range B.h).map fun r => B.masked id r c

variable {B : FilteredBatch α}

theorem times_pos (c : Nat) : 0 < B.times c ↔ B.column c := columns_times_pos B.us c

theorem columnOf_length (id c : Nat) : (B.columnOf id c).length = B.h := by simp [columnOf]

theorem Ok.h_pos {idss : List (List Nat)} (h : B.Ok idss) : 0 < B.h := by
  have := h.query_le
  unfold FilteredBatch.h
  omega

theorem Ok.w_pos {idss : List (List Nat)} (h : B.Ok idss) : 0 < B.w := by
  have := h.args.series
  unfold FilteredBatch.w
  omega

theorem Ok.columnOf_ne_nil {idss : List (List Nat)} (h : B.Ok idss) (id c : Nat) : B.columnOf id c ≠ [] := by
  have := h.h_pos
  unfold columnOf
  simp
  omega

theorem masked_ne_nan {id : Nat} (hid : id < B.kinds.length) (r c : Nat) : B.masked id r c ≠ .nan := by
  unfold masked pairValue
  split
  · simp
  · exact filteredDist_ne_nan _ _ _ _ hid _ _

/-- An entry of a column: `+inf` in the trivial match band and for pairs with a marked point, else the distance. -/
theorem columnOf_getElem? {id : Nat} (hid : id < B.kinds.length) (c r : Nat) (hr : r < B.h) : (B.columnOf id c)[r]? = some (open Classical in
    if ((r : Int) - c ≤ B.b ∧ (c : Int) - r ≤ B.b) ∨ B.marked id r c then .pinf else .fin (B.value id r c)) := by
  classical
  unfold columnOf
  rw [List.getElem?_map, List.getElem?_range hr, Option.map_some]
  congr 1
  unfold masked pairValue
  by_cases hf : (r : Int) - c ≤ B.b ∧ (c : Int) - r ≤ B.b
  · rw [if_pos hf, if_pos (.inl hf)]
  · rw [if_neg hf]
    by_cases hm : B.marked id r c
    · rw [if_pos (.inr hm)]; exact filteredDist_marked hm
    · rw [if_neg (by tauto)]; exact filteredDist_value hid hm

theorem columnOf_clean {id : Nat} (hid : id < B.kinds.length) (c : Nat) : Fl.nan ∉ B.columnOf id c := by
  intro h
  obtain ⟨r, -, hr⟩ := List.mem_map.mp h
  exact masked_ne_nan hid r c hr

/-- Without calls for diagonals every consumer receives columns only. -/
theorem Ok.columns_only {idss : List (List Nat)} (hB : B.Ok idss) (hcol : ∀ n, .diagonals n ∉ B.us) (id : Nat) :
    ∃ cs : List Nat, B.exactEvents [id] = cs.map (fun c : Nat => CEvent.column (c : Int) [B.columnOf id c]) ∧ (∀ c ∈ cs, c < B.w) ∧ ∀ c, cs.count c = B.times c := by
  have hcells := hB.cells id
  obtain ⟨cs, h1, h2⟩ := Verif.columns_only B.m B.query.isNone B.b B.order (B.dist id) B.s B.q B.us hcol BSt.init
  have h1 : B.dels id = _ := h1
  refine ⟨cs, ?_, fun c hc => ?_, h2⟩
  · rw [exactEvents_single, h1, List.map_map]
    rfl
  · have := hcells.valid _ (by rw [h1]; exact List.mem_map_of_mem hc)
    exact this.1

end FilteredBatch

/-- **C94, RadiusProfile0.** `RadiusProfile0` consumers of an `AnytimeCalculator` with any channels and generators, with and without filters, after any sequence of
(partial, possibly interrupted) `calculate_columns` calls: no call raises, and the profile shows the `k`-th smallest distances of exactly the calculated columns,
where pairs with a marked point are at distance `+inf`. Partial for Euclidean generators, see `C94_counts_wrong`. -/
theorem C94_kth_smallest_partial (B : FilteredBatch α) (xs : List (List Int × Nat)) (hB : B.Fine exactMode (xs.map fun x => [x.2])) (hcol : ∀ n, .diagonals n ∉ B.us)
    (htrack : ∀ x ∈ xs, TrackOk x.1) :
    ∃ cons', B.result (RP0.ops (FKind.ops B.memE B.memZ)) (xs.map fun x => (RP0.new x.1, [x.2])) = .ok cons' ∧
      List.Forall₂ (fun x c => c.2 = [x.2] ∧ ShowsKthOf (B.columnOf x.2) B.w B.column x.1 c.1) xs cons' := by
  refine FilteredBatch.exactConsumers (B := B) RP0.ops (fun _ => rfl) xs (fun x => (RP0.new x.1, [x.2])) hB
    (fun x p => ShowsKthOf (B.columnOf x.2) B.w B.column x.1 p) ?_
  rintro ⟨track, id⟩ hx
  obtain ⟨cs, f1, f2, f3⟩ := hB.toOk.columns_only hcol id
  obtain ⟨p0, p', g1, g2, g3⟩ := RP0.columns_fed (FKind.ops B.memE B.memZ) (B.columnOf id) B.h B.w track (htrack _ hx) cs f2 B.times f3
  refine ⟨p0, p', g1, by rw [f1]; exact g2, ?_⟩
  simp only [FilteredBatch.times_pos] at g3
  exact g3

/-- **C94, RadiusProfile.** The same for `RadiusProfile` consumers with pairwise different track indices: pairs with a marked point are no matches. -/
theorem C94_kth_match_partial (B : FilteredBatch α) (fuel : Nat) (hfuel : B.h ≤ fuel) (xs : List ((List Int × Nat) × Nat))
    (hB : B.Fine exactMode (xs.map fun x => [x.2])) (hcol : ∀ n, .diagonals n ∉ B.us) (htrack : ∀ x ∈ xs, TrackOk x.1.1 ∧ x.1.1.Nodup) :
    ∃ cons', B.result (RP.ops fuel (FKind.ops B.memE B.memZ)) (xs.map fun x => (some (RP.new x.1.1 x.1.2), [x.2])) = .ok cons' ∧
      List.Forall₂ (fun x c => c.2 = [x.2] ∧ ∃ p, c.1 = some p ∧ ShowsMatchesOf (B.columnOf x.2) B.w B.column x.1.1 x.1.2 p) xs cons' := by
  refine FilteredBatch.exactConsumers (B := B) (RP.ops fuel) (fun _ => rfl) xs (fun x => (some (RP.new x.1.1 x.1.2), [x.2])) hB
    (fun x o => ∃ p, o = some p ∧ ShowsMatchesOf (B.columnOf x.2) B.w B.column x.1.1 x.1.2 p) ?_
  rintro ⟨⟨track, e⟩, id⟩ hx
  obtain ⟨cs, f1, f2, f3⟩ := hB.toOk.columns_only hcol id
  obtain ⟨p0, p', g1, g2, g3⟩ := RP.columns_fed (FKind.ops B.memE B.memZ) (B.columnOf id) B.h B.w (hB.toOk.columnOf_ne_nil id) fuel
    (fun c => by rw [B.columnOf_length]; exact hfuel) track
    (htrack _ hx).1 (htrack _ hx).2 e cs f2 B.times f3
  refine ⟨p0, some p', g1, by rw [f1]; exact g2, p', rfl, ?_⟩
  simp only [FilteredBatch.times_pos] at g3
  exact g3

/-- **C94, DistancedThresholdCounter.** The same for `DistancedThresholdCounter` consumers, whatever `np.argsort` makes of ties: the counts are those of best-first
selections, once for every time that the column was calculated, where pairs with a marked point are at distance `+inf`. -/
theorem C94_selection_partial (B : FilteredBatch α) (argsort : List (Fl ℝ) → List Nat) (hsort : ∀ l, IsArgsort l (argsort l)) (xs : List ((List (Fl ℝ) × Nat) × Nat))
    (hB : B.Fine exactMode (xs.map fun x => [x.2])) (hcol : ∀ n, .diagonals n ∉ B.us) (hthr : ∀ x ∈ xs, x.1.1 ≠ []) :
    ∃ cons', B.result (DTC.ops argsort (FKind.ops B.memE B.memZ)) (xs.map fun x => (DTC.new x.1.1 x.1.2, [x.2])) = .ok cons' ∧
      List.Forall₂ (fun x c => c.2 = [x.2] ∧ ShowsSelectionsOf (B.columnOf x.2) B.w B.times x.1.1 x.1.2 c.1) xs cons' := by
  refine FilteredBatch.exactConsumers (B := B) (DTC.ops argsort) (fun _ => rfl) xs (fun x => (DTC.new x.1.1 x.1.2, [x.2])) hB
    (fun x p => ShowsSelectionsOf (B.columnOf x.2) B.w B.times x.1.1 x.1.2 p) ?_
  rintro ⟨⟨thr, ex⟩, id⟩ hx
  have hlt := hB.toOk.id_lt (List.mem_map_of_mem (f := fun x : (List (Fl ℝ) × Nat) × Nat => [x.2]) hx) (by simp : id ∈ [id])
  obtain ⟨cs, f1, f2, f3⟩ := hB.toOk.columns_only hcol id
  obtain ⟨p0, p', g1, g2, g3⟩ := DTC.columns_fed (FKind.ops B.memE B.memZ) (B.columnOf id) B.h B.w (B.columnOf_clean hlt) argsort hsort thr (hthr _ hx) ex cs f2 B.times f3
  exact ⟨p0, p', g1, by rw [f1]; exact g2, g3⟩

/-! ### Concrete cases -/

/-- The calculation of `exFilteredBatch` with the columns 1 and 2 before an interrupt, then the columns 2 and 3. -/
noncomputable def exFilteredColumns : FilteredBatch (ℝ × Fl ℝ) := { exFilteredBatch with us := exColumnBatch.us, os := exColumnBatch.os }

theorem exFilteredColumns_fine {idss : List (List Nat)} (h : ∀ ids ∈ idss, ∀ id ∈ ids, id < 3) (h0 : ∀ id < 3, ∃ ids ∈ idss, id ∈ ids) :
    exFilteredColumns.Fine exactMode idss :=
  have hf := exFilteredBatch_fine h h0
  ⟨⟨hf.memE, hf.memZ, hf.perm, hf.args, hf.filters, hf.series, hf.queryOk, (exColumnBatch_ok (idss := [[0, 2]]) (by simp) (by simp) (by simp)).calls⟩,
    fun _ => hf.good ⟨1, 2, by decide, by simp [exFilteredBatch]⟩⟩

/-- C94 on a concrete calculation: column 2 is calculated twice, position 1 of the series contains the NaN of channel 1. -/
example : exFilteredColumns.times 0 = 0 ∧ exFilteredColumns.times 2 = 2 ∧ exFilteredColumns.marked 0 3 1 ∧
    (∃ a b c, exFilteredColumns.result (RP0.ops (FKind.ops exFilteredColumns.memE exFilteredColumns.memZ)) [(RP0.new [2, 0], [0]), (RP0.new [1], [1]), (RP0.new [1], [2])] =
      .ok [(a, [0]), (b, [1]), (c, [2])] ∧ ShowsKthOf (exFilteredColumns.columnOf 0) exFilteredColumns.w exFilteredColumns.column [2, 0] a) ∧
    (∃ a b c, exFilteredColumns.result (RP.ops 4 (FKind.ops exFilteredColumns.memE exFilteredColumns.memZ)) [(some (RP.new [2, 0] 1), [0]), (some (RP.new [1] 0), [1]), (some (RP.new [1] 0), [2])] =
      .ok [(some a, [0]), (some b, [1]), (some c, [2])] ∧ ShowsMatchesOf (exFilteredColumns.columnOf 0) exFilteredColumns.w exFilteredColumns.column [2, 0] 1 a) ∧
    ∃ a b c, exFilteredColumns.result (DTC.ops exArgsort (FKind.ops exFilteredColumns.memE exFilteredColumns.memZ))
        [(DTC.new [.fin 2, .fin 1] 1, [0]), (DTC.new [.pinf] 0, [1]), (DTC.new [.fin 2] 0, [2])] = .ok [(a, [0]), (b, [1]), (c, [2])] ∧
      ShowsSelectionsOf (exFilteredColumns.columnOf 0) exFilteredColumns.w exFilteredColumns.times [.fin 2, .fin 1] 1 a := by
  have hcol : ∀ n, .diagonals n ∉ exFilteredColumns.us := by simp [exFilteredColumns, exColumnBatch]
  refine ⟨by decide, by decide, ?_, ?_, ?_, ?_⟩
  · simp [FilteredBatch.marked, filteredMarked, FKind.Marked, exFilteredColumns, exFilteredBatch, exFKinds, exHoles, holeChan, FilteredBatch.q, Fl.isFinite]
  · obtain ⟨cons', h1, h2⟩ := C94_kth_smallest_partial exFilteredColumns [([2, 0], 0), ([1], 1), ([1], 2)]
      (exFilteredColumns_fine (by simp) (by intro id hid; simp; omega)) hcol (by simp [TrackOk])
    match cons', h1, h2 with
    | [(a, _), (b, _), (c, _)], h1, .cons ⟨rfl, ha⟩ (.cons ⟨rfl, hb⟩ (.cons ⟨rfl, hc⟩ .nil)) => exact ⟨a, b, c, h1, ha⟩
  · obtain ⟨cons', h1, h2⟩ := C94_kth_match_partial exFilteredColumns 4 (by simp [exFilteredColumns, exFilteredBatch, FilteredBatch.h, FilteredBatch.q, exHoles])
      [(([2, 0], 1), 0), (([1], 0), 1), (([1], 0), 2)] (exFilteredColumns_fine (by simp) (by intro id hid; simp; omega)) hcol (by simp [TrackOk])
    match cons', h1, h2 with
    | [(_, _), (_, _), (_, _)], h1, .cons ⟨rfl, a, ea, ha⟩ (.cons ⟨rfl, b, eb, hb⟩ (.cons ⟨rfl, c, ec, hc⟩ .nil)) =>
      dsimp only at ea eb ec
      subst ea eb ec
      exact ⟨a, b, c, h1, ha⟩
  · obtain ⟨cons', h1, h2⟩ := C94_selection_partial exFilteredColumns exArgsort exArgsort_ok [(([.fin 2, .fin 1], 1), 0), (([.pinf], 0), 1), (([.fin 2], 0), 2)]
      (exFilteredColumns_fine (by simp) (by intro id hid; simp; omega)) hcol (by simp)
    match cons', h1, h2 with
    | [(a, _), (b, _), (c, _)], h1, .cons ⟨rfl, ha⟩ (.cons ⟨rfl, hb⟩ (.cons ⟨rfl, hc⟩ .nil)) => exact ⟨a, b, c, h1, ha⟩

example : ∃ cons', exFilteredColumns.result (TC.ops (FKind.ops exFilteredColumns.memE exFilteredColumns.memZ))
    [(TC.new [.fin 3, .pinf], [0]), (TC.new [.fin 1], [1]), (TC.new [.fin (5 / 2)], [2])] = .ok cons' ∧ cons'.length = 3 := by
  obtain ⟨cons', h1, h2⟩ := C94_columns_partial exFilteredColumns [([.fin 3, .pinf], 0), ([.fin 1], 1), ([.fin (5 / 2)], 2)]
    (exFilteredColumns_fine (by simp) (by intro id hid; simp; omega)) (by simp [exFilteredColumns, exColumnBatch])
  exact ⟨cons', h1, h2.length_eq.symm⟩

/-- Squares in place of distances, one filtered generator, series 1 5 NaN 2 6 1, `m = 2`, all columns: the smallest and second smallest distances per column, first
of all rows, then (`exclusion` 0) of the matches. The second smallest distance of columns with one unmarked partner is `+inf`, the second match NaN. -/
example : (batchAll (RP0.ops (Filter.Batch.ops (Eucl.genOps zeroMem (fun x : ℚ => x)))) List.reverse
      [(fun m s q => Filter.prepare (Eucl.prepare zeroMem) (fun l _ => l.map fun x => !x.isFinite) m.toNat s q, 0)]
      [(RP0.new [0, 1], [0])] [0] 2 [[.fin 1, .fin 5, .nan, .fin 2, .fin 6, .fin 1]] none (some 1)
      [.columns (fun _ => false) none (.float (.fin 1))]).map
        (fun l => l.map fun x => (List.range 2).map fun t => (List.range 5).map (x.1.values t)) =
      .ok [[[.fin 2, .pinf, .pinf, .fin 2, .fin 41], [.fin 41, .pinf, .pinf, .pinf, .pinf]]] ∧
    (batchAll (RP.ops 5 (Filter.Batch.ops (Eucl.genOps zeroMem (fun x : ℚ => x)))) List.reverse
      [(fun m s q => Filter.prepare (Eucl.prepare zeroMem) (fun l _ => l.map fun x => !x.isFinite) m.toNat s q, 0)]
      [(some (RP.new [0, 1] 0), [0])] [0] 2 [[.fin 1, .fin 5, .nan, .fin 2, .fin 6, .fin 1]] none (some 1)
      [.columns (fun _ => false) none (.float (.fin 1))]).map
        (fun l => l.map fun x => x.1.map fun p => (List.range 2).map fun t => (List.range 5).map (p.values t)) =
      .ok [some [[.fin 2, .nan, .nan, .fin 2, .fin 41], [.fin 41, .nan, .nan, .nan, .nan]]] := by
  constructor <;> decide +kernel

end Verif
