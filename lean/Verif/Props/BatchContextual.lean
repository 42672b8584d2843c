import Verif.Lemmas.CaseExamples
import Verif.Props.BatchMatrix
import Verif.Props.ContextualProfile

/-!
# C70: `ContextualMatrixProfile` at any moment of a batch calculation
-/

namespace Verif
open Spec
variable {α G K M : Type}

theorem CMP.feed_eq [LinearOrder K] (ctx : CtxOps M) (gops : GenOps G K) (ds : List (Delivery K)) : ∀ (o : CMPObj M K) (p : CMP M K), o.st = some p →
    feed (CMP.ops ctx gops) o (ds.map Delivery.event) = (p.run ctx ds).map fun p => { o with st := some p } := by
  induction ds with
  | nil =>
    intro o p h
    show Except.ok o = Except.ok { o with st := some p }
    rw [← h]
  | cons d ds ih =>
    intro o p h
    have e : (Delivery.event d).apply (CMP.ops ctx gops) o = (p.deliver ctx d).map fun p => { o with st := some p } := by
      obtain ⟨a1, a2, a3, a4, a5, a6⟩ := o
      cases h
      cases d <;> rfl
    show (do feed _ (← d.event.apply (CMP.ops ctx gops) o) (ds.map Delivery.event)) = ((p.deliver ctx d).bind fun p => p.run ctx ds).map _
    rw [e]
    cases p.deliver ctx d with
    | error e => rfl
    | ok p1 => exact ih _ p1 rfl

/-- Every delivery of a batch calculation is a whole diagonal or a whole column. -/
theorem whole_deliveries [LinearOrder K] {m : Nat} {selfJoin : Bool} {b : Int} {order : List Int} {D : List α → List α → Fl K} {s q : List α} {us : List BOp}
    (hs : m ≤ s.length) (hq : m ≤ q.length) (hself : selfJoin = true → q = s) (ho : OrderOk m selfJoin b order s.length q.length)
    (hv : ∀ d ∈ allDeliveries m selfJoin b order D s q BSt.init us, d.Valid (q.length + 1 - m) (s.length + 1 - m)) :
    ∀ d ∈ allDeliveries m selfJoin b order D s q BSt.init us, Whole (q.length + 1 - m) (s.length + 1 - m) d := by
  intro d hd
  have hv := hv d hd
  have hlen := diagValues_length D m s q
  rcases mem_allDeliveries hd with ⟨k, hk, h | ⟨hj, h⟩⟩ | ⟨c, a, e, -, -, -, h⟩
  · obtain ⟨o1, o2, -⟩ := ho k hk
    subst h
    have hl := hlen k
    unfold diagEntries at hl
    refine ⟨?_, ?_⟩
    · intro h0
      rw [h0, List.length_nil] at hl
      omega
    · rw [hl]; omega
  · obtain ⟨o1, o2, -⟩ := ho k hk
    have e := hself hj
    subst e h
    have hl := hlen k
    unfold diagEntries at hl
    refine ⟨?_, ?_⟩
    · intro h0
      rw [h0, List.length_nil] at hl
      omega
    · rw [hl]; omega
  · subst h
    exact ⟨hv.1, hv.2.1, by simp⟩

theorem BatchCase.Ok.whole {B : BatchCase α} {idss : List (List Nat)} (hB : B.Ok idss) {id : Nat} (hid : id < B.kinds.length) : ∀ d ∈ B.dels id, Whole B.h B.w d :=
  whole_deliveries hB.args.series (batchQuery_le hB.args) (by intro e; unfold BatchCase.q; rw [Option.isNone_iff_eq_none.mp e]; rfl) hB.order_ok.1 (hB.cells hid).valid

theorem BatchCase.masked_ne_nan (B : BatchCase α) (id r c : Nat) : B.masked id r c ≠ .nan := by
  unfold BatchCase.masked
  split <;> simp

/-- Arguments of a `ContextualMatrixProfile` with a `GeneralStaticManager`. -/
structure CtxArgs where
  series : List (PRange ⊕ List PRange)
  query : Option (List (PRange ⊕ List PRange))
  o1 : List Nat
  o2 : List Nat
  scale : ℚ
  memD : List (List (Fl ℝ))
  memS : List (List Int)
  memQ : List (List Int)

namespace CtxArgs
variable (A : CtxArgs)

/-- The query contexts. -/
def qctx : List Ctx := contexts (A.query.getD A.series)
/-- The series contexts. -/
def sctx : List Ctx := contexts A.series

/-- The object. -/
def new : Except PyErr (CMPObj StaticMgr ℝ) :=
  (StaticMgr.init A.series A.query A.o1 A.o2).map fun m => ⟨m, A.scale, A.memD, A.memS, A.memQ, none⟩

/-- Increasing ranges with at least one that is not empty on each axis; `o1`, `o2` are what `argsort` gives. -/
structure Ok : Prop where
  series : ValidRanges A.series
  query : ValidRanges (A.query.getD A.series)
  someSeries : A.sctx ≠ []
  someQuery : A.qctx ≠ []
  start : IsArgsortBy Ctx.start A.qctx A.o1
  stop : IsArgsortBy Ctx.stop A.qctx A.o2
  scale1 : 1 ≤ A.scale
  scale2 : A.scale ≤ 2
  memD : A.memD.length = RB.capacity A.scale (numIds A.sctx)
  memS : A.memS.length = RB.capacity A.scale (numIds A.sctx)
  memQ : A.memQ.length = RB.capacity A.scale (numIds A.sctx)

end CtxArgs

/-- `v` is the smallest of the values `A` at the pairs `P` of the given rows and columns, (`a`, `b`) its position; `+inf`, -1, -1 if there is none. -/
structure Spec.IsCtxMin (A : Nat → Nat → Fl ℝ) (P : Nat → Nat → Prop) (rows cols : Nat → Prop) (v : Fl ℝ) (a b : Int) : Prop where
  lower : ∀ r c, P r c → rows r → cols c → v ≤ A r c
  attained : (v = .pinf ∧ a = -1 ∧ b = -1) ∨ ∃ r c, P r c ∧ rows r ∧ cols c ∧ v = A r c ∧ v < .pinf ∧ a = (r : Int) ∧ b = (c : Int)

/-- A new `ContextualMatrixProfile` with a `GeneralStaticManager` that receives the cells of a matrix. -/
theorem CMP.static_fed (gops : GenOps G ℝ) {A : CtxArgs} (hA : A.Ok) {o : CMPObj StaticMgr ℝ} (hnew : A.new = .ok o) {h w : Nat} {V : Nat → Nat → Fl ℝ} {P : Nat → Nat → Prop}
    {ds : List (Delivery ℝ)} (hcells : CellsAre V h w P ds) (hw : ∀ d ∈ ds, Whole h w d) (hV : ∀ r c, V r c ≠ .nan) (n : Nat) :
    ∃ p0 p', (CMP.ops StaticMgr.ops gops).initialise o n h w = .ok p0 ∧ feed (CMP.ops StaticMgr.ops gops) p0 (ds.map Delivery.event) = .ok p' ∧
      ∃ p D Q S, p'.st = some p ∧ p.Holds (numIds A.qctx) (numIds A.sctx) D Q S ∧
        ∀ i < numIds A.qctx, ∀ j < numIds A.sctx, IsCtxMin V (fun r c => r < h ∧ c < w ∧ P r c) (fun r => InCtx A.qctx (i : Nat) r) (fun c => InCtx A.sctx (j : Nat) c) (D i j) (Q i j) (S i j) := by
  obtain ⟨m, p, e1, e2, e3⟩ := C51_static_partial (K := ℝ) A.series A.query hA.series hA.query hA.someSeries hA.someQuery A.o1 A.o2 hA.start hA.stop h w A.scale
    hA.scale1 hA.scale2 A.memD A.memS A.memQ hA.memD hA.memS hA.memQ
  have hnan : ∀ d ∈ ds, NoNaN d := by
    intro d hd
    have ho := hcells.of d hd
    cases d with
    | diag d vals =>
      intro hn
      obtain ⟨k, hk⟩ := List.mem_iff_getElem?.mp hn
      exact hV _ _ (ho k _ hk).symm
    | column c vals =>
      intro hn
      rw [show vals = _ from ho] at hn
      obtain ⟨r, -, hr⟩ := List.mem_map.mp hn
      exact hV _ _ hr
    | _ => trivial
  obtain ⟨p', D, Q, S, f1, f2, f3⟩ := e3 ds hw hnan
  have ho : o = ⟨m, A.scale, A.memD, A.memS, A.memQ, none⟩ := by
    have : A.new = .ok ⟨m, A.scale, A.memD, A.memS, A.memQ, none⟩ := by unfold CtxArgs.new; rw [e1]; rfl
    rw [this] at hnew
    exact (Except.ok.inj hnew).symm
  subst ho
  refine ⟨⟨m, A.scale, A.memD, A.memS, A.memQ, some p⟩, ⟨m, A.scale, A.memD, A.memS, A.memQ, some p'⟩, ?_, ?_, p', D, Q, S, rfl, f2, fun i hi j hj => ?_⟩
  · show (CMP.initialise StaticMgr.ops m A.scale h w A.memD A.memS A.memQ).map _ = _
    rw [e2]; rfl
  · rw [CMP.feed_eq StaticMgr.ops _ _ _ p rfl, f1]; rfl
  have hmin := f3 i hi j hj
  obtain ⟨hof, hmem⟩ := mem_run_cells ds hcells.valid hcells.of
  refine ⟨fun r c ⟨hr, hc, hd⟩ hi hj => ?_, ?_⟩
  · obtain ⟨d, hd', x, hx, x1, x2⟩ := hcells.complete r hr c hc hd
    have hx' := (hmem x).mpr ⟨d, hd', hx⟩
    obtain ⟨r', c', -, -, rfl⟩ := hof x hx'
    simp only [Int.natCast_inj] at x1 x2
    subst x1 x2
    exact hmin.lower _ hx' hi hj
  · rcases hmin.attained with h | ⟨hlt', hx, hi', hj'⟩
    · exact .inl h
    · right
      obtain ⟨r, c, hr, hc, e⟩ := hof _ hx
      simp only [Cell.mk.injEq] at e
      obtain ⟨d, hd', hx'⟩ := (hmem _).mp hx
      rcases hcells.sound d hd' _ hx' with h | h
      · simp only at h
        rw [h] at hlt'
        exact absurd hlt' (lt_irrefl _)
      · simp only [e.1, e.2.1, Int.toNat_natCast] at h
        rw [e.1] at hi'
        rw [e.2.1] at hj'
        exact ⟨r, c, ⟨hr, hc, h⟩, hi', hj', e.2.2, hlt', e.1, e.2.1⟩

/-- `v` is the smallest distance among the pairs calculated so far with row in query context `i` and column in series context `j`, (`a`, `b`) its position; `+inf`,
-1, -1 if there is none. -/
structure BatchCase.IsContextMin (B : BatchCase α) (id : Nat) (ql sl : List Ctx) (i j : Int) (v : Fl ℝ) (a b : Int) : Prop where
  lower : ∀ r < B.h, ∀ c < B.w, B.done r c → InCtx ql i r → InCtx sl j c → v ≤ .fin (B.value id r c)
  attained : (v = .pinf ∧ a = -1 ∧ b = -1) ∨
    ∃ r < B.h, ∃ c < B.w, B.done r c ∧ InCtx ql i r ∧ InCtx sl j c ∧ v = .fin (B.value id r c) ∧ a = (r : Int) ∧ b = (c : Int)

/-- **C70.** `ContextualMatrixProfile` consumers with any contexts in `GeneralStaticManager`s (nested, overlapping, partly outside of the matrix, in several
ranges) of an `AnytimeCalculator` with any channels and generators, after any sequence of (partial, possibly interrupted) `calculate_diagonals` and
`calculate_columns` calls: no call raises, and every entry of the contextual matrix is the smallest distance among the pairs calculated so far that lie in the
two contexts, with the match indices of such a pair; `+inf` and -1 if there is none. Partial for Euclidean generators when columns are calculated
(`BatchCase.Ok.good`): see `C66_euclidean_nan`. -/
theorem C70_contextual_partial (B : BatchCase α) (cs : List (CtxArgs × CMPObj StaticMgr ℝ × Nat)) (hcs : ∀ c ∈ cs, c.1.Ok ∧ c.1.new = .ok c.2.1)
    (hB : B.Ok (cs.map fun c => [c.2.2])) :
    ∃ cons', B.result (CMP.ops StaticMgr.ops) (cs.map fun c => (c.2.1, [c.2.2])) = .ok cons' ∧
      List.Forall₂ (fun c o => o.2 = [c.2.2] ∧ ∃ p D Q S, o.1.st = some p ∧ p.Holds (numIds c.1.qctx) (numIds c.1.sctx) D Q S ∧
        ∀ i < numIds c.1.qctx, ∀ j < numIds c.1.sctx, B.IsContextMin c.2.2 c.1.qctx c.1.sctx i j (D i j) (Q i j) (S i j)) cs cons' := by
  refine BatchCase.consumersOf (B := B) (CMP.ops StaticMgr.ops) (fun _ => rfl) cs (fun c => (c.2.1, [c.2.2])) hB (fun c o =>
      ∃ p D Q S, o.st = some p ∧ p.Holds (numIds c.1.qctx) (numIds c.1.sctx) D Q S ∧
        ∀ i < numIds c.1.qctx, ∀ j < numIds c.1.sctx, B.IsContextMin c.2.2 c.1.qctx c.1.sctx i j (D i j) (Q i j) (S i j)) ?_
  rintro ⟨A, o, id⟩ hm
  obtain ⟨hA, hnew⟩ := hcs _ hm
  have hlt : id < B.kinds.length := hB.id_lt (List.mem_map_of_mem (f := fun c : CtxArgs × CMPObj StaticMgr ℝ × Nat => [c.2.2]) hm) (by simp)
  obtain ⟨p0, p', e1, e2, p, D, Q, S, e3, e4, e5⟩ := CMP.static_fed (GenKind.ops B.memE B.memZ) hA hnew (hB.cells hlt) (hB.whole hlt) (B.masked_ne_nan id) 1
  refine ⟨p0, p', e1, by rw [BatchCase.events_single]; exact e2, p, D, Q, S, e3, e4, fun i hi j hj => ⟨fun r hr c hc hd hi' hj' => ?_, ?_⟩⟩
  · rw [← hB.masked_done hd]
    exact (e5 i hi j hj).lower r c ⟨hr, hc, hd⟩ hi' hj'
  · rcases (e5 i hi j hj).attained with h | ⟨r, c, ⟨hr, hc, hd⟩, hi', hj', hv, -, ha, hb⟩
    · exact .inl h
    · exact .inr ⟨r, hr, c, hc, hd, hi', hj', by rw [hv, hB.masked_done hd], ha, hb⟩

/-! ### Concrete cases -/

/-- Overlapping series contexts, one of two ranges, the second of which ends outside of the 4 × 4 matrix. -/
def exCtx : CtxArgs := ⟨[.inl ⟨0, 2, 1⟩, .inr [⟨1, 2, 1⟩, ⟨3, 9, 1⟩]], some [.inl ⟨1, 3, 1⟩], [0], [0], 1, [[], []], [[], []], [[], []]⟩

theorem exCtx_ok : exCtx.Ok := by
  refine ⟨?_, ?_, by decide, by decide, ⟨by decide, List.pairwise_singleton _ _⟩, ⟨by decide, List.pairwise_singleton _ _⟩, le_refl (1 : ℚ), show (1 : ℚ) ≤ 2 by norm_num, ?_, ?_, ?_⟩
  · intro x hx r hr
    simp only [exCtx, List.mem_cons, List.not_mem_nil, or_false] at hx
    rcases hx with rfl | rfl <;> simp only [rangesOf, List.mem_cons, List.not_mem_nil, or_false] at hr
    · subst hr; decide
    · rcases hr with rfl | rfl <;> decide
  · intro x hx r hr
    simp only [exCtx, Option.getD_some, List.mem_singleton] at hx
    subst hx
    simp only [rangesOf, List.mem_singleton] at hr
    subst hr; decide
  · decide +kernel
  · decide +kernel
  · decide +kernel

example : ∃ o a b, exCtx.new = .ok o ∧ exBatch.result (CMP.ops StaticMgr.ops) [(o, [2]), (o, [0])] = .ok [(a, [2]), (b, [0])] := by
  obtain ⟨o, ho⟩ : ∃ o, exCtx.new = .ok o := ⟨_, rfl⟩
  obtain ⟨cons', h1, h2⟩ := C70_contextual_partial exBatch [(exCtx, o, 2), (exCtx, o, 0)] (by simpa using ⟨exCtx_ok, ho⟩) (exBatch_ok (by simp) (by simp) (by simp))
  cases h2 with
  | @cons _ x _ _ p1 h2 => cases h2 with
    | @cons _ y _ _ p2 h2 => cases h2 with
      | nil =>
        obtain ⟨a, _⟩ := x
        obtain ⟨b, _⟩ := y
        obtain ⟨rfl, p1⟩ := p1
        obtain ⟨rfl, p2⟩ := p2
        exact ⟨o, a, b, ho, h1⟩

set_option synthInstance.maxSize 1000 in
/-- The contextual matrix before the first call, after the first diagonal, after the column, and at the end; squared distances. -/
example : (([0, 1, 2, 3] : List Nat).map fun n => (StaticMgr.init exCtx.series exCtx.query [0] [0]).bind fun m =>
      (batchAll (CMP.ops StaticMgr.ops (Eucl.genOps zeroMem (fun x : ℚ => x))) List.reverse [(Eucl.prepare zeroMem, 0)]
      [(⟨m, 1, [[], []], [[], []], [[], []], none⟩, [0])] [0] 2 [[.fin 1, .fin 5, .fin 2, .fin 8, .fin 3]] none (some 0)
      (([.diagonals (fun n => n == 1) (.float (.fin 1)), .columns (fun _ => false) (some (.int 1)) (.int 2), .diagonals (fun _ => false) (.int 100)] :
        List Anytime.Op).take n)).map
        (fun l => l.map fun x => ((x.1.st.map fun p => (p.dist.items, p.miq.items, p.mis.items)).getD ([], [], [])))) =
    [.ok [([[.pinf], [.pinf]], [[-1], [-1]], [[-1], [-1]])], .ok [([[.pinf], [.pinf]], [[-1], [-1]], [[-1], [-1]])],
     .ok [([[.fin 45], [.fin 45]], [[2], [2]], [[1], [1]])], .ok [([[.fin 10], [.fin 10]], [[2], [1]], [[0], [3]])]] := by
  decide +kernel

end Verif
