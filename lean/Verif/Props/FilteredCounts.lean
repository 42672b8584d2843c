import Verif.Props.FilteredProfile
import Verif.Props.BatchCounts

/-!
# C94: counts of data with holes

`ThresholdCounter` in batch calculations with generators that may be wrapped in filters.
-/

namespace Verif
open Spec
variable {α : Type}

namespace FilteredBatch
variable {B : FilteredBatch α}

theorem Ok.self {idss : List (List Nat)} (_ : B.Ok idss) (h : B.query.isNone = true) : B.q = B.s := by
  unfold FilteredBatch.q
  rw [Option.isNone_iff_eq_none.mp h]; rfl

theorem Ok.query_le {idss : List (List Nat)} (h : B.Ok idss) : B.m ≤ B.q.length := batchQuery_le h.args

theorem Ok.no_shift {idss : List (List Nat)} (h : B.Ok idss) (id : Nat) : ∀ d ∈ B.dels id, d.NoShift := by
  intro d hm
  have := (h.cells id).of d hm
  cases d with
  | diag d v => trivial
  | column c v => trivial
  | _ => exact this.elim

/-- Without columns nothing is required of the data. -/
theorem Ok.fine {idss : List (List Nat)} (h : B.Ok idss) (hus : ∀ op ∈ B.us, ∃ n, op = .diagonals n) : B.Fine exactMode idss := by
  refine ⟨h, ?_⟩
  rintro ⟨a, c, -, hm⟩
  obtain ⟨n, hn⟩ := hus _ hm
  cases hn

/-- With z-normalised distances nothing is required of the data. -/
theorem Ok.fine_znorm {idss : List (List Nat)} (h : B.Ok idss) (hz : ∀ k ∈ B.kinds, ∃ noise scale, k.1.inner = .znorm noise scale) : B.Fine exactMode idss :=
  ⟨h, fun _ k hk => FKind.good_znorm (hz k hk) _ _ _⟩

/-- Is the distance of the pair (`r`, `c`), `+inf` if it is marked, at most `θ`? -/
noncomputable def below (B : FilteredBatch α) (id : Nat) (θ : Fl ℝ) (c r : Nat) : Bool := Fl.leF (B.dist id ((B.s.drop c).take B.m) ((B.q.drop r).take B.m)) θ

/-- The same with `+inf` in the trivial match band. -/
noncomputable def belowMasked (B : FilteredBatch α) (id : Nat) (θ : Fl ℝ) (c r : Nat) : Bool := Fl.leF (B.masked id r c) θ

/-- A `ThresholdCounter` that receives the calls of the calculation. -/
theorem Ok.counts_fed {idss : List (List Nat)} (hB : B.Ok idss) (thr : List (Fl ℝ)) (id : Nat) :
    ∃ p p' : TC ℝ, TC.initialise thr (B.w : Int) = .ok p ∧ p.run (B.dels id) = .ok p' ∧
      ∀ (t : Nat) (θ : Fl ℝ), thr[t]? = some θ → ∀ j < B.w,
        p'.counts t j = BSt.init.tally B.h B.query.isNone B.order (B.below id θ j) (B.belowMasked id θ j) j B.us 0 := by
  have hcells := hB.cells id
  obtain ⟨p, p', e1, e2, e3⟩ := C45_any_history thr B.h B.w (B.dels id) (hB.no_shift id) hcells.valid
  refine ⟨p, p', e1, e2, ?_⟩
  intro t θ ht j hj
  rw [e3 t θ ht j hj, countedFor_eq]
  exact tally_ok B.m B.query.isNone B.b (batchBuffer_ge hB.args).1 B.order hB.order_ok.2 (B.dist id) B.s B.q hB.args.series
    hB.query_le hB.order_ok.1 hB.self (batchBuffer_ge hB.args).2 (fun _ a b => filteredDist_symm B.π B.m B.kinds id a b) j hj (fun v => Fl.leF v θ) B.us BSt.init []

end FilteredBatch

/-- **C94, ThresholdCounter.** `ThresholdCounter` consumers (any thresholds) of an `AnytimeCalculator` with any channels and generators, with and without
filters, after any sequence of (partial, possibly interrupted) `calculate_diagonals` and `calculate_columns` calls: no call raises, and the counts are those of
`BSt.tally`, pairs with a marked point being at distance `+inf`. Partial for Euclidean generators when columns are calculated: no tiny distances in the data
with 0 at the marked points (`C94_counts_wrong`). -/
theorem C94_counts_partial (B : FilteredBatch α) (cs : List (List (Fl ℝ) × Nat)) (hB : B.Fine exactMode (cs.map fun c => [c.2])) :
    ∃ cons', B.result (TC.ops (FKind.ops B.memE B.memZ)) (cs.map fun c => (TC.new c.1, [c.2])) = .ok cons' ∧
      List.Forall₂ (fun c p => p.2 = [c.2] ∧ ∀ (t : Nat) (θ : Fl ℝ), c.1[t]? = some θ → ∀ j < B.w,
        p.1.counts t j = BSt.init.tally B.h B.query.isNone B.order (B.below c.2 θ j) (B.belowMasked c.2 θ j) j B.us 0) cs cons' := by
  refine FilteredBatch.exactConsumers (B := B) TC.ops (fun _ => rfl) cs (fun c => (TC.new c.1, [c.2])) hB
    (fun c p => ∀ (t : Nat) (θ : Fl ℝ), c.1[t]? = some θ → ∀ j < B.w,
        p.counts t j = BSt.init.tally B.h B.query.isNone B.order (B.below c.2 θ j) (B.belowMasked c.2 θ j) j B.us 0) fun c _ => ?_
  obtain ⟨p, p', e1, e2, e3⟩ := hB.toOk.counts_fed c.1 c.2
  refine ⟨p, p', e1, ?_, e3⟩
  rw [FilteredBatch.exactEvents_single, TC.feed_eq _ _ (hB.toOk.no_shift c.2)]
  exact e2

/-- A pair counts for a finite threshold if it is not marked and its distance is at most the threshold. -/
theorem FilteredBatch.below_iff (B : FilteredBatch α) {id : Nat} (hid : id < B.kinds.length) (θ : ℝ) (c r : Nat) :
    B.below id (.fin θ) c r = true ↔ ¬ B.marked id r c ∧ B.value id r c ≤ θ := by
  unfold FilteredBatch.below FilteredBatch.dist
  by_cases hm : B.marked id r c
  · rw [filteredDist_marked hm]
    simp [hm, Fl.leF]
  · rw [filteredDist_value hid hm]
    simp [hm, Fl.leF_iff, FilteredBatch.value]

theorem FilteredBatch.belowMasked_iff (B : FilteredBatch α) {id : Nat} (hid : id < B.kinds.length) (θ : ℝ) (c r : Nat) :
    B.belowMasked id (.fin θ) c r = true ↔ ¬ ((r : Int) - c ≤ B.b ∧ (c : Int) - r ≤ B.b) ∧ ¬ B.marked id r c ∧ B.value id r c ≤ θ := by
  unfold FilteredBatch.belowMasked FilteredBatch.masked
  by_cases hf : (r : Int) - c ≤ B.b ∧ (c : Int) - r ≤ B.b
  · unfold pairValue
    rw [if_pos hf]
    simp [hf, Fl.leF]
  · rw [pairValue_far hf, ← B.below_iff hid θ c r]
    simp only [hf, not_false_eq_true, true_and]
    rfl

open Classical in
/-- **C94, ThresholdCounter, diagonals only.** With a query, or with `trivial_match_buffer >= 0`, after any sequence of (partial, possibly interrupted)
`calculate_diagonals` calls: for every threshold that is a number, the counts are the numbers of pairs calculated so far that contain no marked point and have a
distance `<=` the threshold. Any data. -/
theorem C94_diagonals (B : FilteredBatch α) (cs : List (List (Fl ℝ) × Nat)) (hB : B.Ok (cs.map fun c => [c.2])) (hus : ∀ op ∈ B.us, ∃ n, op = .diagonals n)
    (hb : B.query = none → 0 ≤ B.b) :
    ∃ cons', B.result (TC.ops (FKind.ops B.memE B.memZ)) (cs.map fun c => (TC.new c.1, [c.2])) = .ok cons' ∧
      List.Forall₂ (fun c p => p.2 = [c.2] ∧ ∀ (t : Nat) (θ : ℝ), c.1[t]? = some (.fin θ) → ∀ j < B.w,
        p.1.counts t j = (List.range B.h).countP fun r => B.done r j ∧ ¬ B.marked c.2 r j ∧ B.value c.2 r j ≤ θ) cs cons' := by
  obtain ⟨cons', h1, h2⟩ := C94_counts_partial B cs (hB.fine hus)
  have hpos : B.query.isNone = true → ∀ d ∈ B.order, 0 < d := by
    intro hn d hd
    have := ((batchOrder_ok hB.perm hB.args.series (fun e => (hB.args.bufferLen e).1) (batchQuery_le hB.args)).2.2 d).mp hd
    rw [if_pos hn] at this
    exact lt_of_le_of_lt (hb (Option.isNone_iff_eq_none.mp hn)) this.1
  refine ⟨cons', h1, List.forall₂_iff_get.mpr ⟨h2.length_eq, fun i hi hi' => ?_⟩⟩
  have h := (List.forall₂_iff_get.mp h2).2 i hi hi'
  have hlt := hB.id_lt (List.mem_map_of_mem (f := fun c : List (Fl ℝ) × Nat => [c.2]) (List.get_mem cs ⟨i, hi⟩)) (by simp : (cs.get ⟨i, hi⟩).2 ∈ [(cs.get ⟨i, hi⟩).2])
  refine ⟨h.1, fun t θ ht j hj => ?_⟩
  rw [h.2 t (.fin θ) ht j hj, tally_diagonals B.h B.query.isNone B.b B.order hB.order_ok.2 hpos _ _ j B.us hus, Nat.zero_add]
  refine List.countP_congr fun r _ => ?_
  rw [Bool.and_eq_true_iff, B.below_iff hlt, decide_eq_true_iff, decide_eq_true_iff]
  rfl

open Classical in
/-- **C94, ThresholdCounter, columns only.** After any sequence of (partial, possibly interrupted) `calculate_columns` calls: for every threshold that is a number,
the counts of a column are the numbers of rows outside of the trivial match band such that the pair contains no marked point and has a distance `<=` the threshold, if the
column was calculated, however often, and 0 if not. Partial for Euclidean generators, see `C94_counts_wrong`. -/
theorem C94_columns_partial (B : FilteredBatch α) (cs : List (List (Fl ℝ) × Nat)) (hB : B.Fine exactMode (cs.map fun c => [c.2]))
    (hus : ∀ op ∈ B.us, ∃ a e, op = .columns a e) :
    ∃ cons', B.result (TC.ops (FKind.ops B.memE B.memZ)) (cs.map fun c => (TC.new c.1, [c.2])) = .ok cons' ∧
      List.Forall₂ (fun c p => p.2 = [c.2] ∧ ∀ (t : Nat) (θ : ℝ), c.1[t]? = some (.fin θ) → ∀ j < B.w,
        p.1.counts t j = if B.column j then
          (List.range B.h).countP fun r : Nat => ¬ ((r : Int) - j ≤ B.b ∧ (j : Int) - r ≤ B.b) ∧ ¬ B.marked c.2 r j ∧ B.value c.2 r j ≤ θ else 0) cs cons' := by
  obtain ⟨cons', h1, h2⟩ := C94_counts_partial B cs hB
  refine ⟨cons', h1, List.forall₂_iff_get.mpr ⟨h2.length_eq, fun i hi hi' => ?_⟩⟩
  have h := (List.forall₂_iff_get.mp h2).2 i hi hi'
  have hlt := hB.toOk.id_lt (List.mem_map_of_mem (f := fun c : List (Fl ℝ) × Nat => [c.2]) (List.get_mem cs ⟨i, hi⟩)) (by simp : (cs.get ⟨i, hi⟩).2 ∈ [(cs.get ⟨i, hi⟩).2])
  refine ⟨h.1, fun t θ ht j hj => ?_⟩
  rw [h.2 t (.fin θ) ht j hj]
  have := tally_columns B.h B.query.isNone B.order (B.below (cs.get ⟨i, hi⟩).2 (.fin θ) j) (B.belowMasked (cs.get ⟨i, hi⟩).2 (.fin θ) j) j B.us hus BSt.init 0
  by_cases hc : B.column j
  · rw [if_pos hc, this.1 hc]
    refine List.countP_congr fun r _ => ?_
    rw [B.belowMasked_iff hlt, decide_eq_true_iff]
  · rw [if_neg hc]; exact this.2 hc

/-- **C94, ThresholdCounter, columns only, z-normalised**: nothing is required of the data. -/
theorem C94_columns_znorm (B : FilteredBatch α) (cs : List (List (Fl ℝ) × Nat)) (hB : B.Ok (cs.map fun c => [c.2]))
    (hz : ∀ k ∈ B.kinds, ∃ noise scale, k.1.inner = .znorm noise scale) (hus : ∀ op ∈ B.us, ∃ a e, op = .columns a e) :
    open Classical in ∃ cons', B.result (TC.ops (FKind.ops B.memE B.memZ)) (cs.map fun c => (TC.new c.1, [c.2])) = .ok cons' ∧
      List.Forall₂ (fun c p => p.2 = [c.2] ∧ ∀ (t : Nat) (θ : ℝ), c.1[t]? = some (.fin θ) → ∀ j < B.w,
        p.1.counts t j = if B.column j then
          (List.range B.h).countP fun r : Nat => ¬ ((r : Int) - j ≤ B.b ∧ (j : Int) - r ≤ B.b) ∧ ¬ B.marked c.2 r j ∧ B.value c.2 r j ≤ θ else 0) cs cons' :=
  C94_columns_partial B cs (hB.fine_znorm hz) hus

/-! ### Concrete cases -/

example : ∃ cons', exFilteredBatch.result (TC.ops (FKind.ops exFilteredBatch.memE exFilteredBatch.memZ))
    [(TC.new [.fin 3, .pinf], [0]), (TC.new [.fin 1], [1]), (TC.new [.fin (5 / 2)], [2])] = .ok cons' ∧ cons'.length = 3 := by
  obtain ⟨cons', h1, h2⟩ := C94_counts_partial exFilteredBatch [([.fin 3, .pinf], 0), ([.fin 1], 1), ([.fin (5 / 2)], 2)]
    (exFilteredBatch_fine (by simp) (by intro id hid; simp; omega))
  exact ⟨cons', h1, h2.length_eq.symm⟩

/-- Squares in place of distances, one filtered generator, series 1 5 NaN 2 6 1, `m = 2`, thresholds 2, 50 and `+inf`, all diagonals: the positions 1 and 2 contain
the NaN and have no pairs up to 50; with the threshold `+inf` all pairs count, also the marked ones. -/
example : (batchAll (TC.ops (Filter.Batch.ops (Eucl.genOps zeroMem (fun x : ℚ => x)))) List.reverse
      [(fun m s q => Filter.prepare (Eucl.prepare zeroMem) (fun l _ => l.map fun x => !x.isFinite) m.toNat s q, 0)]
      [(TC.new [.fin 2, .fin 50, .pinf], [0])] [0] 2 [[.fin 1, .fin 5, .nan, .fin 2, .fin 6, .fin 1]] none (some 0)
      [.diagonals (fun _ => false) (.float (.fin 1))]).map
        (fun l => l.map fun x => (List.range 3).map fun t => (List.range 5).map (x.1.counts t)) =
    .ok [[[1, 0, 0, 1, 0], [2, 0, 0, 2, 2], [4, 4, 4, 4, 4]]] := by
  decide +kernel

/-- Why `C94_counts_partial` speaks of 0 at the marked points: series 1e-8 5 and query NaN 5, `m = 1`, squares in place of distances, threshold 1. By columns the
wrapped generator compares 1e-8 to the 0 that stands for the NaN, and the error spoils the next column: the equal points 5 and 5 are not counted. By diagonals
they are. -/
theorem C94_counts_wrong :
    ([.columns (fun _ => false) none (.float (.fin 1)), .diagonals (fun _ => false) (.float (.fin 1))] : List Anytime.Op).map (fun op =>
      (batchAll (TC.ops (Filter.Batch.ops (Eucl.genOps zeroMem (fun x : ℚ => x)))) List.reverse
        [(fun m s q => Filter.prepare (Eucl.prepare zeroMem) (fun l _ => l.map fun x => !x.isFinite) m.toNat s q, 0)]
        [(TC.new [.fin 1], [0])] [0] 1 [[.fin (1 / 100000000), .fin 5]] (some [[.nan, .fin 5]]) none [op]).map
          (fun l => l.map fun x => (List.range 2).map (x.1.counts 0))) =
    [.ok [[0, 0]], .ok [[0, 1]]] := by
  decide +kernel

/-- `C94_diagonals`: the first of the calls of `exFilteredBatch`. -/
example := C94_diagonals (exFilteredZ [.diagonals 2] [.diagonals (fun n => n == 2) (.float (.fin 1))]) [([.fin 3, .pinf], 0), ([.fin 1], 1)]
  (exFilteredZ_ok (us := [.diagonals 2]) (os := [.diagonals (fun n => n == 2) (.float (.fin 1))]) ⟨exBatch_calls.1, trivial⟩ (by simp) (by intro id hid; simp; omega)) (by simp [exFilteredZ]) (fun _ => le_refl _)

/-- `C94_columns_znorm`: the second one. -/
example := C94_columns_znorm (exFilteredZ [.columns 1 2] [.columns (fun _ => false) (some (.int 1)) (.int 2)]) [([.fin 3, .pinf], 0), ([.fin 1], 1)]
  (exFilteredZ_ok exColumn_calls (by simp) (by intro id hid; simp; omega)) (exFilteredZ_znorm _ _) (by simp [exFilteredZ])

/-- `C94_columns_partial`. -/
example := C94_columns_partial {exFilteredBatch with us := [.columns 1 2], os := [.columns (fun _ => false) (some (.int 1)) (.int 2)]} [([.fin 3, .pinf], 0), ([.fin 1], 1), ([.fin 1], 2)]
  (have h := exFilteredBatch_fine (idss := [[0], [1], [2]]) (by simp) (by intro id hid; simp; omega)
   ⟨⟨h.memE, h.memZ, h.perm, h.args, h.filters, h.series, h.queryOk, exColumn_calls⟩, fun _ => h.2 ⟨1, 2, by omega, by simp [exFilteredBatch]⟩⟩) (by simp)

end Verif
