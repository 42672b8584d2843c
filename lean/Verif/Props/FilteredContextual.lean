import Verif.Props.FilteredRadius
import Verif.Props.StreamContextual

/-!
# C95: contextual matrix profiles of data with holes

`ContextualMatrixProfile` in batch and streaming calculations with generators that may be wrapped in filters.
-/

namespace Verif
open Spec
variable {α M : Type}

/-! ### Batch -/

theorem FilteredBatch.Ok.whole {B : FilteredBatch α} {idss : List (List Nat)} (hB : B.Ok idss) (id : Nat) : ∀ d ∈ B.dels id, Whole B.h B.w d :=
  whole_deliveries hB.args.series hB.query_le hB.self hB.order_ok.1 (hB.cells id).valid

/-- `v` is the smallest distance among the pairs calculated so far with row in query context `i` and column in series context `j` that contain no point marked for
generator `id`, (`a`, `b`) its position; `+inf`, -1, -1 if there is none. -/
structure FilteredBatch.IsContextMin (B : FilteredBatch α) (id : Nat) (ql sl : List Ctx) (i j : Int) (v : Fl ℝ) (a b : Int) : Prop where
  lower : ∀ r < B.h, ∀ c < B.w, B.done r c → ¬ B.marked id r c → InCtx ql i r → InCtx sl j c → v ≤ .fin (B.value id r c)
  attained : (v = .pinf ∧ a = -1 ∧ b = -1) ∨
    ∃ r < B.h, ∃ c < B.w, B.done r c ∧ ¬ B.marked id r c ∧ InCtx ql i r ∧ InCtx sl j c ∧ v = .fin (B.value id r c) ∧ a = (r : Int) ∧ b = (c : Int)

/-- **C95, batch.** `ContextualMatrixProfile` consumers with any contexts in `GeneralStaticManager`s of an `AnytimeCalculator` with any channels and generators, with
and without filters, after any sequence of (partial, possibly interrupted) `calculate_diagonals` and `calculate_columns` calls: no call raises, and every entry of the
contextual matrix is the smallest distance among the pairs calculated so far that lie in the two contexts and contain no marked point, with the match indices of
such a pair; `+inf` and -1 if there is none. Partial for Euclidean generators when columns are calculated: no tiny distances in the data with 0 at the marked points
(`C95_contextual_wrong`). -/
theorem C95_batch_contextual_partial (B : FilteredBatch α) (cs : List (CtxArgs × CMPObj StaticMgr ℝ × Nat)) (hcs : ∀ c ∈ cs, c.1.Ok ∧ c.1.new = .ok c.2.1)
    (hB : B.Fine exactMode (cs.map fun c => [c.2.2])) :
    ∃ cons', B.result (CMP.ops StaticMgr.ops (FKind.ops B.memE B.memZ)) (cs.map fun c => (c.2.1, [c.2.2])) = .ok cons' ∧
      List.Forall₂ (fun c o => o.2 = [c.2.2] ∧ ∃ p D Q S, o.1.st = some p ∧ p.Holds (numIds c.1.qctx) (numIds c.1.sctx) D Q S ∧
        ∀ i < numIds c.1.qctx, ∀ j < numIds c.1.sctx, B.IsContextMin c.2.2 c.1.qctx c.1.sctx i j (D i j) (Q i j) (S i j)) cs cons' := by
  refine FilteredBatch.exactConsumers (B := B) (CMP.ops StaticMgr.ops) (fun _ => rfl) cs (fun c => (c.2.1, [c.2.2])) hB (fun c o =>
      ∃ p D Q S, o.st = some p ∧ p.Holds (numIds c.1.qctx) (numIds c.1.sctx) D Q S ∧
        ∀ i < numIds c.1.qctx, ∀ j < numIds c.1.sctx, B.IsContextMin c.2.2 c.1.qctx c.1.sctx i j (D i j) (Q i j) (S i j)) ?_
  rintro ⟨A, o, id⟩ hm
  obtain ⟨hA, hnew⟩ := hcs _ hm
  have hlt : id < B.kinds.length := hB.toOk.id_lt (List.mem_map_of_mem (f := fun c : CtxArgs × CMPObj StaticMgr ℝ × Nat => [c.2.2]) hm) (by simp)
  obtain ⟨p0, p', e1, e2, p, D, Q, S, e3, e4, e5⟩ := CMP.static_fed (FKind.ops B.memE B.memZ) hA hnew (hB.toOk.cells id) (hB.toOk.whole id)
    (FilteredBatch.masked_ne_nan hlt) 1
  have hfar : ∀ r c, B.done r c → B.masked id r c = B.dist id ((B.s.drop c).take B.m) ((B.q.drop r).take B.m) := by
    intro r c hd
    unfold FilteredBatch.masked
    rw [pairValue_far (hB.toOk.done_far hd)]
  refine ⟨p0, p', e1, by rw [FilteredBatch.exactEvents_single]; exact e2, p, D, Q, S, e3, e4, fun i hi j hj => ⟨fun r hr c hc hd hm hi' hj' => ?_, ?_⟩⟩
  · have := (e5 i hi j hj).lower r c ⟨hr, hc, hd⟩ hi' hj'
    rw [hfar r c hd] at this
    exact this.trans_eq (filteredDist_value hlt hm)
  · rcases (e5 i hi j hj).attained with h | ⟨r, c, ⟨hr, hc, hd⟩, hi', hj', hv, hlt', ha, hb⟩
    · exact .inl h
    · rw [hfar r c hd] at hv
      have hm : ¬ B.marked id r c := by
        intro hm
        rw [hv] at hlt'
        exact absurd (hlt'.trans_eq (filteredDist_marked (m := B.m) hm).symm) (lt_irrefl _)
      exact .inr ⟨r, hr, c, hc, hd, hm, hi', hj', hv.trans (filteredDist_value hlt hm), ha, hb⟩

/-- **C95, batch, z-normalised**: nothing is required of the data. -/
theorem C95_batch_contextual_znorm (B : FilteredBatch α) (cs : List (CtxArgs × CMPObj StaticMgr ℝ × Nat)) (hcs : ∀ c ∈ cs, c.1.Ok ∧ c.1.new = .ok c.2.1)
    (hB : B.Ok (cs.map fun c => [c.2.2])) (hz : ∀ k ∈ B.kinds, ∃ noise scale, k.1.inner = .znorm noise scale) :
    ∃ cons', B.result (CMP.ops StaticMgr.ops (FKind.ops B.memE B.memZ)) (cs.map fun c => (c.2.1, [c.2.2])) = .ok cons' ∧
      List.Forall₂ (fun c o => o.2 = [c.2.2] ∧ ∃ p D Q S, o.1.st = some p ∧ p.Holds (numIds c.1.qctx) (numIds c.1.sctx) D Q S ∧
        ∀ i < numIds c.1.qctx, ∀ j < numIds c.1.sctx, B.IsContextMin c.2.2 c.1.qctx c.1.sctx i j (D i j) (Q i j) (S i j)) cs cons' :=
  C95_batch_contextual_partial B cs hcs (hB.fine_znorm hz)

/-! ### Streaming -/

namespace FilteredStream
variable (S : FilteredStream α)

/-- Was the pair (`r`, `c`) of positions in the streams calculated, and is it not in the trivial match band? -/
def done (r c : Nat) : Prop := S.last.done r c ∧ ¬ ((r : Int) - c ≤ S.b ∧ (c : Int) - r ≤ S.b)

/-- Does generator `id` mark a point in the pair (`r`, `c`) of positions in the streams? -/
def markedAt (id r c : Nat) : Prop := filteredMarked S.π S.kinds id ((S.last.s.drop c).take S.m) ∨ filteredMarked S.π S.kinds id ((S.last.q.drop r).take S.m)
/-- The distance of the pair (`r`, `c`) of positions in the streams by generator `id`, if it is not marked. -/
noncomputable def valueAt (id r c : Nat) : ℝ := filteredValue S.π S.m S.kinds id ((S.last.s.drop c).take S.m) ((S.last.q.drop r).take S.m)

/-- `v` is the smallest distance among the pairs calculated so far with row in query context `i` and column in series context `j` of the streams that contain no point
marked for generator `id`, (`a`, `b`) its position in the streams; `+inf`, -1, -1 if there is none. -/
structure IsContextMin (id : Nat) (X : CtxStream M) (i j : Int) (v : Fl ℝ) (a b : Int) : Prop where
  lower : ∀ r c : Nat, S.done r c → ¬ S.markedAt id r c → X.inQuery i r → X.inSeries j c → v ≤ .fin (S.valueAt id r c)
  attained : (v = .pinf ∧ a = -1 ∧ b = -1) ∨
    ∃ r c : Nat, S.done r c ∧ ¬ S.markedAt id r c ∧ X.inQuery i r ∧ X.inSeries j c ∧ v = .fin (S.valueAt id r c) ∧ a = (r : Int) ∧ b = (c : Int)

end FilteredStream

/-- **C95, streaming.** `ContextualMatrixProfile` consumers of a `StreamingCalculator` with any channels and generators, with and without filters, each with a context
manager that follows contexts of the streams, query contexts keeping their numbers: after any sequence of `append_series`, `append_query` and (possibly interrupted)
`calculate_columns` calls no call has raised, and entry (`i`, `j`) of the contextual matrix is the smallest distance among all pairs calculated so far (also those that
have left the windows) of query context `i` and the series context that now has number `j` that contain no marked point, with the positions in the streams of such a
pair; `+inf` and -1 if there is none. Partial as `C93_contextual_partial`, and for Euclidean generators as the batch version. -/
theorem C95_stream_contextual_partial (S : FilteredStream α) (ops : CtxOps M) (cs : List (CtxStream M × CMPObj M ℝ × Nat))
    (hcs : ∀ c ∈ cs, c.1.Fits ops S.m S.N S.M S.us c.2.1) (hS : S.Fine exactMode (cs.map fun c => [c.2.2])) :
    ∃ cons', S.result (CMP.ops ops (FKind.ops S.memE S.memZ)) (cs.map fun c => (c.2.1, [c.2.2])) = .ok cons' ∧
      List.Forall₂ (fun (c : CtxStream M × CMPObj M ℝ × Nat) (o : CMPObj M ℝ × List Nat) => o.2 = [c.2.2] ∧ ∃ p D Q J, o.1.st = some p ∧ p.Holds c.1.nq c.1.ns D Q J ∧
        ∀ i < c.1.nq, ∀ j < c.1.ns, S.IsContextMin c.2.2 c.1 i (j + c.1.moved (S.last.s.length - S.N) : Nat) (D i j) (Q i j) (J i j)) cs cons' := by
  refine FilteredStream.exactConsumers (S := S) (CMP.ops ops) (fun _ => rfl) cs (fun c => (c.2.1, [c.2.2])) hS (fun c o =>
      ∃ p D Q J, o.st = some p ∧ p.Holds c.1.nq c.1.ns D Q J ∧
        ∀ i < c.1.nq, ∀ j < c.1.ns, S.IsContextMin c.2.2 c.1 i (j + c.1.moved (S.last.s.length - S.N) : Nat) (D i j) (Q i j) (J i j)) ?_
  rintro ⟨X, o, id⟩ hm
  have hlt : id < S.kinds.length := hS.toOk.id_lt (List.mem_map_of_mem (f := fun c : CtxStream M × CMPObj M ℝ × Nat => [c.2.2]) hm) (by simp)
  obtain ⟨p0, p', e1, e2, p, D, Q, J, e3, e4, e5⟩ := CMP.stream_fed (FKind.ops S.memE S.memZ) (D := S.dist id) (b := S.b) (hcs _ hm) hS.args.pos
    (filteredDist_ne_nan S.π S.m S.kinds id hlt) hS.args.series hS.args.query hS.valid 1
  have hval : ∀ r c : Nat, S.done r c → S.last.cell (S.dist id) S.m S.b r c = S.dist id ((S.last.s.drop c).take S.m) ((S.last.q.drop r).take S.m) := by
    intro r c hd
    unfold MSt.cell
    rw [if_neg hd.2]
  refine ⟨p0, p', e1, by rw [FilteredStream.exactEvents_single]; exact e2, p, D, Q, J, e3, e4, fun i hi j hj => ⟨fun r c hd hm hq hs => ?_, ?_⟩⟩
  · exact ((e5 i hi j hj).lower r c hd.1 hq hs).trans_eq ((hval r c hd).trans (filteredDist_value hlt hm))
  · rcases (e5 i hi j hj).attained with h | ⟨r, c, hd, hq, hs, hv, hlt', ha, hb⟩
    · exact .inl h
    · have hfar : S.done r c := by
        refine ⟨hd, fun hb => ?_⟩
        have : S.last.cell (S.dist id) S.m S.b r c = .pinf := by unfold MSt.cell; rw [if_pos hb]
        rw [hv] at hlt'
        exact absurd (hlt'.trans_eq this.symm) (lt_irrefl _)
      have hv' := hv.trans (hval r c hfar)
      have hm : ¬ S.markedAt id r c := by
        intro hm
        rw [hv'] at hlt'
        exact absurd (hlt'.trans_eq (filteredDist_marked (m := S.m) hm).symm) (lt_irrefl _)
      exact .inr ⟨r, c, hfar, hm, hq, hs, hv'.trans (filteredDist_value hlt hm), ha, hb⟩

/-- **C95, streaming, contexts of equal length**: no further condition on the calculation. -/
theorem C95_chunks_partial (S : FilteredStream α) (L : Nat) (hL : 0 < L) (cs : List (CMPObj Nat ℝ × Nat))
    (hcs : ∀ c ∈ cs, c.1.ctxs = 0 ∧ c.1.st = none ∧ 1 ≤ c.1.scale ∧ c.1.scale ≤ 2 ∧ c.1.memD.length = RB.capacity c.1.scale (S.w / L + 2) ∧
      c.1.memS.length = RB.capacity c.1.scale (S.w / L + 2) ∧ c.1.memQ.length = RB.capacity c.1.scale (S.w / L + 2)) (hS : S.Fine exactMode (cs.map fun c => [c.2])) :
    ∃ cons', S.result (CMP.ops (chunkMgr L S.h S.w) (FKind.ops S.memE S.memZ)) (cs.map fun c => (c.1, [c.2])) = .ok cons' ∧
      List.Forall₂ (fun (c : CMPObj Nat ℝ × Nat) (o : CMPObj Nat ℝ × List Nat) => o.2 = [c.2] ∧ ∃ p D Q J, o.1.st = some p ∧ p.Holds 1 (S.w / L + 2) D Q J ∧
        ∀ j < S.w / L + 2, let first := (j + (S.last.s.length - S.N) / L) * L
          (∀ r c' : Nat, S.done r c' → ¬ S.markedAt c.2 r c' → first ≤ c' → c' < first + L → D 0 j ≤ .fin (S.valueAt c.2 r c')) ∧
          ((D 0 j = .pinf ∧ Q 0 j = -1 ∧ J 0 j = -1) ∨ ∃ r c' : Nat, S.done r c' ∧ ¬ S.markedAt c.2 r c' ∧ (first ≤ c' ∧ c' < first + L) ∧ D 0 j = .fin (S.valueAt c.2 r c') ∧
            Q 0 j = (r : Int) ∧ J 0 j = (c' : Int))) cs cons' := by
  obtain ⟨cons', h1, h2⟩ := C95_stream_contextual_partial S (chunkMgr L S.h S.w) (cs.map fun c => (chunkStream L S.h S.w, c.1, c.2)) (by
    intro c hc
    obtain ⟨⟨⟨c0, sc, mD, mS, mQ, st⟩, id⟩, hx, rfl⟩ := List.mem_map.mp hc
    obtain ⟨h1, h2, h3, h4, h5, h6, h7⟩ := hcs _ hx
    simp only at h1 h2
    subst h1 h2
    exact chunks_fit L hL hS.args.pos hS.args.series hS.args.query S.us hS.valid sc h3 h4 mD mS mQ h5 h6 h7) (by simpa [List.map_map, Function.comp_def] using hS)
  refine ⟨cons', by simpa [List.map_map, Function.comp_def] using h1, ?_⟩
  rw [List.forall₂_map_left_iff] at h2
  refine h2.imp ?_
  rintro c o ⟨e, p, D, Q, J, g1, g2, g3⟩
  refine ⟨e, p, D, Q, J, g1, g2, fun j hj => ?_⟩
  have hmin := g3 0 (by simp [chunkStream]) j hj
  have hin : ∀ c' : Nat, (chunkStream L S.h S.w).inSeries ((j + (chunkStream L S.h S.w).moved (S.last.s.length - S.N) : Nat) : Int) (c' : Int) ↔
      (j + (S.last.s.length - S.N) / L) * L ≤ c' ∧ c' < (j + (S.last.s.length - S.N) / L) * L + L := by
    intro c'
    show ((j + (S.last.s.length - S.N) / L : Nat) : Int) * (L : Int) ≤ c' ∧ (c' : Int) < ((j + (S.last.s.length - S.N) / L : Nat) : Int) * (L : Int) + L ↔ _
    rw [← Nat.cast_mul]
    omega
  refine ⟨fun r c' hd hm h3 h4 => hmin.lower r c' hd hm ⟨rfl, by simp⟩ ((hin c').mpr ⟨h3, h4⟩), ?_⟩
  rcases hmin.attained with h | ⟨r, c', hd, hm, -, hs, hv, ha, hb⟩
  · exact .inl h
  · exact .inr ⟨r, c', hd, hm, (hin c').mp hs, hv, ha, hb⟩

/-! ### Concrete cases -/

example : ∃ o a b c, exCtx.new = .ok o ∧ exFilteredBatch.result (CMP.ops StaticMgr.ops (FKind.ops exFilteredBatch.memE exFilteredBatch.memZ)) [(o, [2]), (o, [0]), (o, [1])] =
    .ok [(a, [2]), (b, [0]), (c, [1])] := by
  obtain ⟨o, ho⟩ : ∃ o, exCtx.new = .ok o := ⟨_, rfl⟩
  obtain ⟨cons', h1, h2⟩ := C95_batch_contextual_partial exFilteredBatch [(exCtx, o, 2), (exCtx, o, 0), (exCtx, o, 1)] (by simpa using ⟨exCtx_ok, ho⟩)
    (exFilteredBatch_fine (by simp) (by intro id hid; simp; omega))
  cases h2 with
  | @cons _ x _ _ p1 h2 => cases h2 with
    | @cons _ y _ _ p2 h2 => cases h2 with
      | @cons _ z _ _ p3 h2 => cases h2 with
        | nil =>
          obtain ⟨a, _⟩ := x
          obtain ⟨b, _⟩ := y
          obtain ⟨c, _⟩ := z
          obtain ⟨rfl, -⟩ := p1
          obtain ⟨rfl, -⟩ := p2
          obtain ⟨rfl, -⟩ := p3
          exact ⟨o, a, b, c, ho, h1⟩

example : ∃ a b c, exFilteredStream.result (CMP.ops (chunkMgr 2 exFilteredStream.h exFilteredStream.w) (FKind.ops exFilteredStream.memE exFilteredStream.memZ))
    [(⟨0, 1, [[], [], []], [[], [], []], [[], [], []], none⟩, [2]), (⟨0, 1, [[], [], []], [[], [], []], [[], [], []], none⟩, [0]),
      (⟨0, 1, [[], [], []], [[], [], []], [[], [], []], none⟩, [1])] = .ok [(a, [2]), (b, [0]), (c, [1])] := by
  obtain ⟨cons', h1, h2⟩ := C95_chunks_partial exFilteredStream 2 (by decide) [(⟨0, 1, [[], [], []], [[], [], []], [[], [], []], none⟩, 2),
    (⟨0, 1, [[], [], []], [[], [], []], [[], [], []], none⟩, 0), (⟨0, 1, [[], [], []], [[], [], []], [[], [], []], none⟩, 1)] (by
      have : (3 : Nat) = RB.capacity 1 3 := by decide +kernel
      have h3 : exFilteredStream.w / 2 + 2 = 3 := by simp [FilteredStream.w, exFilteredStream]
      intro c hc
      simp only [List.mem_cons, List.not_mem_nil, or_false] at hc
      rw [h3]
      rcases hc with rfl | rfl | rfl <;> exact ⟨rfl, rfl, le_refl _, by norm_num, this, this, this⟩) (exFilteredStream_fine (by simp) (by intro id hid; simp; omega))
  cases h2 with
  | @cons _ x _ _ p1 h2 => cases h2 with
    | @cons _ y _ _ p2 h2 => cases h2 with
      | @cons _ z _ _ p3 h2 => cases h2 with
        | nil =>
          obtain ⟨a, _⟩ := x
          obtain ⟨b, _⟩ := y
          obtain ⟨c, _⟩ := z
          obtain ⟨rfl, -⟩ := p1
          obtain ⟨rfl, -⟩ := p2
          obtain ⟨rfl, -⟩ := p3
          exact ⟨a, b, c, h1⟩

set_option synthInstance.maxSize 1000 in
/-- Squares in place of distances, one filtered generator, series 1 5 NaN 2 6 1, `m = 2`, contexts: positions 0 and 1, positions 1 and 2, positions 3 and 4. The second
context has only marked positions and no pairs; within the third there is the pair of positions 3 and 4, at distance 41. -/
example : ((StaticMgr.init [.inl ⟨0, 2, 1⟩, .inl ⟨1, 3, 1⟩, .inl ⟨3, 5, 1⟩] none [0, 1, 2] [0, 1, 2]).bind fun m =>
      (batchAll (CMP.ops StaticMgr.ops (Filter.Batch.ops (Eucl.genOps zeroMem (fun x : ℚ => x)))) List.reverse
      [(fun m s q => Filter.prepare (Eucl.prepare zeroMem) (fun l _ => l.map fun x => !x.isFinite) m.toNat s q, 0)]
      [(⟨m, 1, [[], [], []], [[], [], []], [[], [], []], none⟩, [0])] [0] 2 [[.fin 1, .fin 5, .nan, .fin 2, .fin 6, .fin 1]] none (some 0)
      [.diagonals (fun _ => false) (.float (.fin 1))]).map fun l => l.map fun c => exCtxShown c.1) =
    .ok [([[.pinf, .pinf, .fin 2], [.pinf, .pinf, .pinf], [.fin 2, .pinf, .fin 41]], [[-1, -1, 3], [-1, -1, -1], [0, -1, 3]], [[-1, -1, 0], [-1, -1, -1], [3, -1, 4]])] := by
  decide +kernel

set_option synthInstance.maxSize 1000 in
/-- Streaming, contexts of two points, windows of three: query 0 NaN 9 and series 1 5 8 2 7, where the 5 is NaN; squared distances. The context of the series points 1
and NaN has left; of those shown the first is 8 2, the second 7. -/
example : ((streamAll (CMP.ops (chunkMgr 2 3 3) (Filter.streamingOps (Eucl.genOps zeroMem (fun x : ℚ => x))))
      [(fun m n q => (Filter.prepareStreaming (fun m n q => Eucl.streaming zeroMem 2 m n (q.map fun q : Nat => (q : Int))) (fun n => List.replicate n true) 2 m.toNat n.toNat
        (q.map Int.toNat)).map fun b => ((fun x => !x.isFinite), b), 0)]
      [(⟨0, 1, [[], [], []], [[], [], []], [[], [], []], none⟩, [0])] [0] 1 3 (some 3) 1 none
      [.query (.d2 [[.fin 0, .nan, .fin 9]] 3), .series (.d2 [[.fin 1, .nan, .fin 8]] 3), .columns (fun _ => false) (.int 3), .series (.d2 [[.fin 2, .fin 7]] 2),
        .columns (fun _ => false) (.int 3)]).map fun l => l.map fun c => exCtxShown c.1) =
    .ok [([[.fin 1], [.fin 4], [.pinf]], [[2], [2], [-1]], [[2], [4], [-1]])] := by
  decide +kernel

set_option synthInstance.maxSize 1000 in
/-- Why `C95_batch_contextual_partial` speaks of 0 at the marked points: series 1e-8 5 and query NaN 5, `m = 1`, squares in place of distances, every point a context. By
columns the wrapped generator compares 1e-8 to the 0 that stands for the NaN, and the error spoils the next column: the equal points 5 and 5 are not found. By
diagonals they are. -/
theorem C95_contextual_wrong :
    ([.columns (fun _ => false) none (.float (.fin 1)), .diagonals (fun _ => false) (.float (.fin 1))] : List Anytime.Op).map (fun op =>
      (StaticMgr.init [.inl ⟨0, 1, 1⟩, .inl ⟨1, 2, 1⟩] none [0, 1] [0, 1]).bind fun m =>
      (batchAll (CMP.ops StaticMgr.ops (Filter.Batch.ops (Eucl.genOps zeroMem (fun x : ℚ => x)))) List.reverse
        [(fun m s q => Filter.prepare (Eucl.prepare zeroMem) (fun l _ => l.map fun x => !x.isFinite) m.toNat s q, 0)]
        [(⟨m, 1, [[], []], [[], []], [[], []], none⟩, [0])] [0] 1 [[.fin (1 / 100000000), .fin 5]] (some [[.nan, .fin 5]]) none [op]).map
          fun l => l.map fun c => (exCtxShown c.1).1) =
    [.ok [[[.pinf, .fin ((5 - 1 / 100000000) ^ 2)], [.pinf, .pinf]]], .ok [[[.pinf, .fin ((5 - 1 / 100000000) ^ 2)], [.pinf, .fin 0]]]] := by
  decide +kernel

/-- `C95_batch_contextual_znorm`. -/
example (o : CMPObj StaticMgr ℝ) (ho : exCtx.new = .ok o) := C95_batch_contextual_znorm (exFilteredZ exFilteredBatch.us exFilteredBatch.os) [(exCtx, o, 1), (exCtx, o, 0)]
  (by simpa using ⟨exCtx_ok, ho⟩) (exFilteredZ_ok exBatch_calls (by simp) (by intro id hid; simp; omega)) (exFilteredZ_znorm _ _)

/-- `C95_stream_contextual_partial` with contexts of two points. -/
example := C95_stream_contextual_partial exFilteredStream (chunkMgr 2 2 3) [(chunkStream 2 2 3, ⟨0, 1, [[], [], []], [[], [], []], [[], [], []], none⟩, 2),
    (chunkStream 2 2 3, ⟨0, 1, [[], [], []], [[], [], []], [[], [], []], none⟩, 0), (chunkStream 2 2 3, ⟨0, 1, [[], [], []], [[], [], []], [[], [], []], none⟩, 1)]
  (by
    have h := exFilteredStream_ok (idss := [[0], [1], [2]]) (by simp) (by intro id hid; simp; omega)
    have h3 : (3 : Nat) = RB.capacity 1 3 := by decide +kernel
    have k := chunks_fit 2 (by decide) h.args.pos h.args.series h.args.query exFilteredStream.us h.valid 1 (le_refl _) (by norm_num) [[], [], []] [[], [], []] [[], [], []] h3 h3 h3
    intro c hc
    simp only [List.mem_cons, List.not_mem_nil, or_false] at hc
    rcases hc with rfl | rfl | rfl <;> exact k)
  (exFilteredStream_fine (by simp) (by intro id hid; simp; omega))

end Verif
