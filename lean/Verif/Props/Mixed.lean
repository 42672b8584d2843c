import Verif.Lemmas.Indifferent
import Verif.Lemmas.CaseExamples
import Verif.Lemmas.StreamFeed
import Verif.Model.Mixed
import Verif.Props.BatchMatrix
import Verif.Props.BatchCounts

/-!
# C103: consumers of different classes in one calculator do not influence each other
-/

namespace Verif
open Spec
variable {G K ι : Type} {Cs : ι → Type}

theorem mix_emb (gops : GenOps G K) (cops : ∀ i, Ops G (Cs i) K) (i : ι) (h : (cops i).gen = gops) : Emb (cops i) (Ops.mix gops cops) (Sigma.mk i) where
  calcColumn := congrArg GenOps.calcColumn h
  calcDiagonal := congrArg GenOps.calcDiagonal h
  appendSeries := congrArg GenOps.appendSeries h
  appendQuery := congrArg GenOps.appendQuery h
  initialise := fun _ _ _ _ => rfl
  processColumn := fun _ _ _ => rfl
  processDiagonal := fun _ _ _ => rfl
  shiftSeries := fun _ _ => rfl
  shiftQuery := fun _ _ => rfl

/-- `needed` are the generators that some of the consumers use, and `nd k` those that consumer `k` uses (calculator.py:107, 236). -/
structure Spec.NeededBy {n : Nat} (ids nd : Fin n → List Nat) (needed : List Nat) : Prop where
  all : needed.Nodup ∧ ∀ id, id ∈ needed ↔ ∃ k, id ∈ ids k
  one : ∀ k, (nd k).Nodup ∧ ∀ id, id ∈ nd k ↔ id ∈ ids k

/-- **C103, batch.** One or more consumers of any classes, in an `AnytimeCalculator` with any generators, any data and any calls. All calls return normally exactly if they do so for each of the
consumers in a calculator of its own (with the same generators and calls), and then every consumer ends up in the state it has there. -/
theorem C103_batch (gops : GenOps G K) (cops : ∀ i, Ops G (Cs i) K) (hc : ∀ i, (cops i).gen = gops) {n : Nat} (hn : 0 < n) (cls : Fin n → ι) (c : ∀ k, Cs (cls k))
    (ids nd : Fin n → List Nat) (needed : List Nat) (hnd : NeededBy ids nd needed) (shuffle : List Int → List Int)
    (gens : List ((Int → List (Fl K) → Option (List (Fl K)) → Except PyErr G) × Nat)) (m : Int) (series : List (List (Fl K))) (query : Option (List (List (Fl K)))) (buffer : Option Int)
    (calls : List Anytime.Op) (cons' : List ((Σ i, Cs i) × List Nat)) :
    batchAll (Ops.mix gops cops) shuffle gens (List.ofFn fun k => (⟨cls k, c k⟩, ids k)) needed m series query buffer calls = .ok cons' ↔
      ∃ c' : ∀ k, Cs (cls k), (∀ k, batchAll (cops (cls k)) shuffle gens [(c k, ids k)] (nd k) m series query buffer calls = .ok [(c' k, ids k)]) ∧
        cons' = List.ofFn fun k => (⟨cls k, c' k⟩, ids k) := by
  have H : Company (fun k => cops (cls k)) (Ops.mix gops cops) (fun k => Sigma.mk (cls k)) ids nd needed (fun _ _ => True) :=
    ⟨hn, fun k => mix_emb gops cops _ (hc _), hnd.all.1, hnd.all.2, fun k => (hnd.one k).1, fun k => (hnd.one k).2, fun _ => trivial, fun _ _ _ _ _ _ _ => trivial,
      fun _ _ _ _ _ _ _ => trivial⟩
  exact Joint.result hn (H.batch c shuffle gens m series query buffer calls) cons'

/-- **C103, streaming.** The same in a `StreamingCalculator`, for generators that accept points regardless of what they were asked for. -/
theorem C103_stream (gops : GenOps G K) (R : G → G → Prop) (hg : Indifferent gops R) (cops : ∀ i, Ops G (Cs i) K) (hc : ∀ i, (cops i).gen = gops) {n : Nat} (hn : 0 < n) (cls : Fin n → ι)
    (c : ∀ k, Cs (cls k)) (ids nd : Fin n → List Nat) (needed : List Nat) (hnd : NeededBy ids nd needed) (gens : List ((Int → Int → Option Int → Except PyErr G) × Nat))
    (m seriesWindow : Int) (queryWindow : Option Int) (nDim : Nat) (buffer : Option Int) (calls : List (Streaming.Op K)) (cons' : List ((Σ i, Cs i) × List Nat)) :
    streamAll (Ops.mix gops cops) gens (List.ofFn fun k => (⟨cls k, c k⟩, ids k)) needed m seriesWindow queryWindow nDim buffer calls = .ok cons' ↔
      ∃ c' : ∀ k, Cs (cls k), (∀ k, streamAll (cops (cls k)) gens [(c k, ids k)] (nd k) m seriesWindow queryWindow nDim buffer calls = .ok [(c' k, ids k)]) ∧
        cons' = List.ofFn fun k => (⟨cls k, c' k⟩, ids k) := by
  have H : Company (fun k => cops (cls k)) (Ops.mix gops cops) (fun k => Sigma.mk (cls k)) ids nd needed R :=
    ⟨hn, fun k => mix_emb gops cops _ (hc _), hnd.all.1, hnd.all.2, fun k => (hnd.one k).1, fun k => (hnd.one k).2, hg.refl, hg.column, hg.diagonal⟩
  exact Joint.result hn (H.stream ⟨hg.series, hg.series'⟩ ⟨hg.query, hg.query'⟩ c gens m seriesWindow queryWindow nDim buffer calls) cons'

/-- **C103, the generators of the repository.** The same in a `StreamingCalculator` with `Euclidean`, `ZNormEuclidean` and `FilterGenerator` objects, without further assumptions. -/
theorem C103_stream_repository (memE : Nat → List (Fl ℝ)) (memZ : ZN.Mem) (memB : Nat → List Bool) (kinds : List (FKind × Nat)) (cops : ∀ i, Ops FGen (Cs i) ℝ)
    (hc : ∀ i, (cops i).gen = FKind.ops memE memZ) {n : Nat} (hn : 0 < n) (cls : Fin n → ι)
    (c : ∀ k, Cs (cls k)) (ids nd : Fin n → List Nat) (needed : List Nat) (hnd : NeededBy ids nd needed)
    (m seriesWindow : Int) (queryWindow : Option Int) (nDim : Nat) (buffer : Option Int) (calls : List (Streaming.Op ℝ)) (cons' : List ((Σ i, Cs i) × List Nat)) :
    streamAll (Ops.mix (FKind.ops memE memZ) cops) (kinds.map fun k => (k.1.streaming memE memZ memB, k.2)) (List.ofFn fun k => (⟨cls k, c k⟩, ids k)) needed m seriesWindow queryWindow nDim
        buffer calls = .ok cons' ↔
      ∃ c' : ∀ k, Cs (cls k), (∀ k, streamAll (cops (cls k)) (kinds.map fun k => (k.1.streaming memE memZ memB, k.2)) [(c k, ids k)] (nd k) m seriesWindow queryWindow nDim buffer calls =
          .ok [(c' k, ids k)]) ∧
        cons' = List.ofFn fun k => (⟨cls k, c' k⟩, ids k) := by
  obtain ⟨R, hR⟩ := FKind.indifferent memE memZ
  exact C103_stream _ R hR cops hc hn cls c ids nd needed hnd _ m seriesWindow queryWindow nDim buffer calls cons'

/-- `MatrixProfileLR`, `DistanceMatrix` and `ThresholdCounter`. -/
inductive ThreeClasses
  | profile
  | matrix
  | counter
  deriving DecidableEq

/-- Their states. -/
abbrev ThreeClasses.State (K : Type) : ThreeClasses → Type
  | .profile => MP K
  | .matrix => DM K
  | .counter => TC K

/-- Their methods. -/
def ThreeClasses.ops [LinearOrder K] (gops : GenOps G K) : ∀ i : ThreeClasses, Ops G (i.State K) K
  | .profile => MP.ops gops
  | .matrix => DM.ops gops
  | .counter => TC.ops gops

theorem ThreeClasses.gen [LinearOrder K] (gops : GenOps G K) (i : ThreeClasses) : (ThreeClasses.ops gops i).gen = gops := by
  cases i <;> rfl

theorem feed_mix (gops : GenOps G K) (cops : ∀ i, Ops G (Cs i) K) (i : ι) : ∀ (es : List (CEvent K)) (c : Cs i),
    feed (Ops.mix gops cops) ⟨i, c⟩ es = (feed (cops i) c es).map (Sigma.mk i)
  | [], _ => rfl
  | e :: es, c => by
    have h1 : e.apply (Ops.mix gops cops) ⟨i, c⟩ = (e.apply (cops i) c).map (Sigma.mk i) := by cases e <;> rfl
    unfold feed
    rw [h1]
    cases e.apply (cops i) c with
    | error => rfl
    | ok c' => exact feed_mix gops cops i es c'

/-- A `DistanceMatrix` or a `ThresholdCounter(thresholds)`. -/
inductive MatrixOrCounts
  | matrix
  | counts (thresholds : List (Fl ℝ))

/-- The new object. -/
def MatrixOrCounts.new : MatrixOrCounts → Σ i : ThreeClasses, i.State ℝ
  | .matrix => ⟨.matrix, DM.new⟩
  | .counts thr => ⟨.counter, TC.new thr⟩

/-- What the object of generator `id` has to show after the calculation `B`. -/
def MatrixOrCounts.Shows {α : Type} (B : BatchCase α) (id : Nat) : MatrixOrCounts → (Σ i : ThreeClasses, i.State ℝ) → Prop
  | .matrix, c => ∃ p : DM ℝ, c = ⟨.matrix, p⟩ ∧ B.ShowsMatrix id p
  | .counts thr, c => ∃ p : TC ℝ, c = ⟨.counter, p⟩ ∧ ∀ (t : Nat) (θ : Fl ℝ), thr[t]? = some θ → ∀ j < B.w,
      p.counts t j = BSt.init.tally B.h B.query.isNone B.order (B.below id θ j) (B.belowMasked id θ j) j B.us 0

/-- `DistanceMatrix` and `ThresholdCounter` consumers side by side in one `AnytimeCalculator` show what C68 and C69 say of calculators with consumers of one class:
the matrices the distances of the pairs calculated so far, the counters how many of them are below the thresholds. Restricted like C68 and C69 (`BatchCase.Ok.good`, see `C66_euclidean_nan`). -/
theorem mixed_matrices_and_counts {α : Type} (B : BatchCase α) (xs : List (MatrixOrCounts × Nat)) (hB : B.Ok (xs.map fun x => [x.2])) :
    ∃ cons', B.result (fun g => Ops.mix g (ThreeClasses.ops g)) (xs.map fun x => (x.1.new, [x.2])) = .ok cons' ∧
      List.Forall₂ (fun x c => c.2 = [x.2] ∧ x.1.Shows B x.2 c.1) xs cons' := by
  refine BatchCase.consumersOf (B := B) (fun g => Ops.mix g (ThreeClasses.ops g)) (fun _ => rfl) xs (fun x => (x.1.new, [x.2])) hB (fun x c => x.1.Shows B x.2 c) ?_
  rintro ⟨x, id⟩ hx
  have hlt : id < B.kinds.length := hB.id_lt (List.mem_map_of_mem (f := fun x : MatrixOrCounts × Nat => [x.2]) hx) (by simp)
  cases x with
  | matrix =>
    obtain ⟨p, p', e1, e2, e3⟩ := hB.toAny.matrix_fed (GenKind.ops B.memE B.memZ) hlt
    refine ⟨⟨.matrix, p⟩, ⟨.matrix, p'⟩, ?_, ?_, p', rfl, e3⟩
    · exact map_ok_iff.mpr ⟨p, e1, rfl⟩
    · rw [feed_mix]
      exact map_ok_iff.mpr ⟨p', e2, rfl⟩
  | counts thr =>
    obtain ⟨p, p', e1, e2, hns, e3⟩ := hB.toAny.counts_fed thr hlt
    refine ⟨⟨.counter, p⟩, ⟨.counter, p'⟩, ?_, ?_, p', rfl, e3⟩
    · exact map_ok_iff.mpr ⟨p, e1, rfl⟩
    · rw [feed_mix]
      refine map_ok_iff.mpr ⟨p', ?_, rfl⟩
      show feed (TC.ops _) p (B.events [id]) = _
      rw [BatchCase.events_single, TC.feed_eq _ _ hns]
      exact e2

/-! ### Concrete cases -/

example : ∃ cons', exBatch.result (fun g => Ops.mix g (ThreeClasses.ops g)) [(⟨.matrix, DM.new⟩, [2]), (⟨.counter, TC.new [.fin 3, .pinf]⟩, [0])] = .ok cons' ∧ cons'.length = 2 := by
  obtain ⟨cons', h1, h2⟩ := mixed_matrices_and_counts exBatch [(.matrix, 2), (.counts [.fin 3, .pinf], 0)] (exBatch_ok (by simp) (by simp) (by simp))
  exact ⟨cons', h1, h2.length_eq.symm⟩

/-- A matrix of generator 1, a profile and a counter of generator 0. -/
def exClasses : Fin 3 → ThreeClasses := ![.matrix, .profile, .counter]

/-- The new objects. -/
def exClassesNew : ∀ k, (exClasses k).State ℚ
  | 0 => DM.new
  | 1 => MP.new
  | 2 => TC.new [.fin 30]

theorem exClasses_needed : NeededBy ![[1], [0], [0]] ![[1], [0], [0]] [1, 0] := by
  refine ⟨⟨by decide, fun id => ⟨fun h => ?_, ?_⟩⟩, fun k => ⟨?_, fun _ => Iff.rfl⟩⟩
  · simp only [List.mem_cons, List.not_mem_nil, or_false] at h
    rcases h with rfl | rfl
    · exact ⟨0, by decide⟩
    · exact ⟨1, by decide⟩
  · rintro ⟨k, hk⟩
    revert hk
    match k with
    | 0 => intro hk; rw [List.mem_singleton.mp hk]; decide
    | 1 => intro hk; rw [List.mem_singleton.mp hk]; decide
    | 2 => intro hk; rw [List.mem_singleton.mp hk]; decide
  · match k with
    | 0 => exact List.nodup_singleton _
    | 1 => exact List.nodup_singleton _
    | 2 => exact List.nodup_singleton _

/-- What the objects show, as numbers: the matrix, the left profile, the counts. -/
def exClassesShow : (Σ i : ThreeClasses, i.State ℚ) → List (Fl ℚ)
  | ⟨.profile, p⟩ => p.left
  | ⟨.matrix, p⟩ => (List.range p.h).flatMap fun r => (List.range p.w).map (p.m r)
  | ⟨.counter, p⟩ => (List.range p.w).map fun c => .fin (p.counts 0 c)

/-- Two channels, a generator for each; a diagonal before an interrupt, then a column. -/
def exClassesRun (ids : List Nat) (consumers : List ((Σ i : ThreeClasses, i.State ℚ) × List Nat)) : Except PyErr (List (List (Fl ℚ))) :=
  (batchAll (Ops.mix (Eucl.genOps zeroMem (fun x : ℚ => x)) (ThreeClasses.ops (Eucl.genOps zeroMem (fun x : ℚ => x)))) List.reverse [(Eucl.prepare zeroMem, 0), (Eucl.prepare zeroMem, 1)]
    consumers ids 2 [[.fin 1, .fin 5, .fin 2, .fin 8], [.fin 0, .fin 1, .fin 1, .fin 3]] none (some 0)
    [.diagonals (fun n => n == 1) (.float (.fin 1)), .columns (fun _ => false) (some (.int 1)) (.int 2)]).map fun l => l.map fun c => exClassesShow c.1

example : exClassesRun [1, 0] (List.ofFn fun k => (⟨exClasses k, exClassesNew k⟩, (![[1], [0], [0]] : Fin 3 → List Nat) k)) =
    .ok [[.nan, .fin 1, .fin 5, .nan, .pinf, .nan, .fin 5, .fin 4, .nan], [.pinf, .fin 25, .fin 10], [.fin 1, .fin 1, .fin 1]] := by
  decide +kernel

/-- Each of them alone. -/
example : exClassesRun [1] [(⟨.matrix, DM.new⟩, [1])] = .ok [[.nan, .fin 1, .fin 5, .nan, .pinf, .nan, .fin 5, .fin 4, .nan]] ∧
    exClassesRun [0] [(⟨.profile, MP.new⟩, [0])] = .ok [[.pinf, .fin 25, .fin 10]] ∧ exClassesRun [0] [(⟨.counter, TC.new [.fin 30]⟩, [0])] = .ok [[.fin 1, .fin 1, .fin 1]] := by
  decide +kernel

/-- A stream whose window moves. The `DistanceMatrix` alone, and next to a `MatrixProfileLR`, which has no `shift_series` and ends the calculation for both. -/
def exClassesStream (consumers : List ((Σ i : ThreeClasses, i.State ℚ) × List Nat)) : Except PyErr (List (List (Fl ℚ))) :=
  (streamAll (Ops.mix (Eucl.genOps zeroMem (fun x : ℚ => x)) (ThreeClasses.ops (Eucl.genOps zeroMem (fun x : ℚ => x)))) [(Eucl.streaming zeroMem 2, 0)] consumers [0] 2 3 none 1 (some 0)
    [.series (.d2 [[.fin 1, .fin 5, .fin 2]] 3), .columns (fun _ => false) (.float (.fin 1)), .series (.d1 [.fin 8])]).map fun l => l.map fun c => exClassesShow c.1

example : exClassesStream [(⟨.matrix, DM.new⟩, [0])] = .ok [[.pinf, .nan, .nan, .nan]] ∧
    exClassesStream [(⟨.matrix, DM.new⟩, [0]), (⟨.profile, MP.new⟩, [0])] = .error .attributeError := by
  decide +kernel

/-- `C103_batch` with these objects. -/
example (cons' : List ((Σ i : ThreeClasses, i.State ℚ) × List Nat)) :=
  C103_batch (Eucl.genOps zeroMem (fun x : ℚ => x)) (ThreeClasses.ops (Eucl.genOps zeroMem (fun x : ℚ => x))) (fun i => by cases i <;> rfl) (by norm_num) exClasses exClassesNew ![[1], [0], [0]]
    ![[1], [0], [0]] [1, 0] exClasses_needed List.reverse [(Eucl.prepare zeroMem, 0), (Eucl.prepare zeroMem, 1)] 2
    [[.fin 1, .fin 5, .fin 2, .fin 8], [.fin 0, .fin 1, .fin 1, .fin 3]] none (some 0) [.diagonals (fun n => n == 1) (.float (.fin 1)), .columns (fun _ => false) (some (.int 1)) (.int 2)] cons'

/-- The new objects, for a stream of real numbers. -/
noncomputable def exClassesReal : ∀ k, (exClasses k).State ℝ
  | 0 => DM.new
  | 1 => MP.new
  | 2 => TC.new [.fin 30]

/-- `C103_stream_repository`: generator 0 is a filtered `ZNormEuclidean`, generator 1 a `Euclidean`, of different channels. -/
example (cons' : List ((Σ i : ThreeClasses, i.State ℝ) × List Nat)) :=
  C103_stream_repository (fun n => List.replicate n .nan) ZN.zeroMem (fun n => List.replicate n true) [(.filtered (fun x => !x.isFinite) 2 (.znorm 0 (3 / 2)), 0), (.plain (.euclidean 2), 1)]
    (ThreeClasses.ops (FKind.ops (fun n => List.replicate n .nan) ZN.zeroMem)) (fun i => by cases i <;> rfl) (by norm_num) exClasses exClassesReal ![[1], [0], [0]] ![[1], [0], [0]] [1, 0]
    exClasses_needed 2 3 none 2 (some 0) [.series (.d2 [[.fin 1, .nan, .fin 2], [.fin 0, .fin 3, .fin 1]] 3), .columns (fun _ => false) (.float (.fin 1)), .series (.d1 [.fin 8, .fin 2])] cons'

end Verif
