import Verif.Props.LateConsumers
import Verif.Props.StreamContextual

/-!
# C99: `ContextualMatrixProfile` objects that are added to a `StreamingCalculator` at any time
-/

namespace Verif
open Spec
variable {α K C P M G : Type}

/-- What a contextual matrix profile shows after a streaming calculation: entry (`i`, `j`) is the smallest value of the calculated pairs of query context `i` and the series
context that now has number `j`, with the position of such a pair. -/
def ShowsContexts (X : CtxStream M) (D : List α → List α → Fl ℝ) (m N : Nat) (b : Int) (u : MSt α) (o : CMPObj M ℝ) : Prop :=
  ∃ p V Q J, o.st = some p ∧ p.Holds X.nq X.ns V Q J ∧ ∀ i < X.nq, ∀ j < X.ns,
    IsCtxMin (u.cell D m b) u.done (fun r => X.inQuery (i : Nat) r) (fun c => X.inSeries ((j + X.moved (u.s.length - N) : Nat) : Int) c) (V i j) (Q i j) (J i j)

/-- The object has room for the contexts. -/
structure Spec.CtxStream.Room (X : CtxStream M) (o : CMPObj M ℝ) : Prop where
  some : 0 < X.ns
  scale1 : 1 ≤ o.scale
  scale2 : o.scale ≤ 2
  memD : o.memD.length = RB.capacity o.scale X.ns
  memS : o.memS.length = RB.capacity o.scale X.ns
  memQ : o.memQ.length = RB.capacity o.scale X.ns

/-- The object is new, or it has been told that `s` points have left the series window and `t` points the query window. -/
def Spec.CtxStream.At (X : CtxStream M) (s t : Nat) (o : CMPObj M ℝ) : Prop :=
  (o.st = none ∧ s = 0 ∧ t = 0 ∧ X.pos 0 0 o.ctxs) ∨ ∃ p, o.st = some p ∧ X.pos s t p.ctxs ∧ p.sShift = s ∧ p.qShift = t

/-- Whenever a column is calculated the query has a subsequence in every query range that meets the window. -/
def Spec.CtxStream.Reach (X : CtxStream M) (m N : Nat) (Mq : Option Nat) (u : MSt α) (us : List (MOp α)) : Prop :=
  u.All m N Mq (fun u op => ∀ k, op = .columns k → u.More m N k → ∀ c, X.pos (u.s.length - N) (u.q.length - Mq.getD N) c →
      Reaches (X.qc c) (Mq.getD N + 1 - m) ((lastN (Mq.getD N) u.q).length + 1 - m)) us

/-- An object that is initialised again keeps its shifts and the state of its manager, and forgets everything else. -/
theorem CMP.initialise_from (gops : GenOps G ℝ) {X : CtxStream M} {ops : CtxOps M} {h w : Nat} (hX : X.Follows ops h w) (o : CMPObj M ℝ) (ho : X.Room o) (t : Seen ℝ)
    (ht : t.cells = []) (hat : X.At t.ss t.qs o) (n : Nat) :
    ∃ p, (CMP.ops ops gops).initialise o n h w = .ok { o with st := some p } ∧ CMP.Follow X h w p t := by
  have key : ∀ m : M, X.pos t.ss t.qs m → ∃ p : CMP M ℝ, CMP.initialise ops m o.scale h w o.memD o.memS o.memQ = .ok p ∧ p.Inv h w X.nq X.ns m 0 0 (fun i j => {X.seen t i (j + X.moved t.ss)}) := by
    intro m hm
    obtain ⟨p, e1, e2⟩ := CMP.initialise_rep (K := ℝ) (hX.looks t.ss t.qs) m hm ho.some h w o.scale ho.scale1 ho.scale2 o.memD o.memS o.memQ ho.memD ho.memS ho.memQ
    refine ⟨p, e1, e2.inv.union ?_ ?_⟩
    · refine fun i _ j _ => ⟨fun s hs => hs.elim, fun s hs x hx => ?_⟩
      obtain rfl : s = _ := hs
      exact absurd hx.1 (by simp [ht])
    · refine fun i _ j _ x => ⟨fun ⟨s, hs, _⟩ => hs.elim, ?_⟩
      rintro ⟨s, hs, hx⟩
      obtain rfl : s = _ := hs
      exact absurd hx.1 (by simp [ht])
  rcases hat with ⟨e, h1, h2, h3⟩ | ⟨p0, e, h1, h2, h3⟩
  · obtain ⟨p, e1, e2⟩ := key o.ctxs (by rw [h1, h2]; exact h3)
    refine ⟨p, ?_, ⟨o.ctxs, by rw [h1, h2]; exact h3, ?_⟩, by simp [ht], by simp [ht]⟩
    · show CMPObj.initialise ops o _ _ = _
      unfold CMPObj.initialise
      rw [e]
      show (CMP.initialise ops o.ctxs o.scale _ _ o.memD o.memS o.memQ).map _ = _
      rw [e1]; rfl
    · rw [h2]
      have := e2
      rw [h1] at this ⊢
      exact this
  · obtain ⟨p, e1, e2⟩ := key p0.ctxs h1
    refine ⟨{ p with qShift := p0.qShift, sShift := p0.sShift }, ?_, ⟨p0.ctxs, h1, ?_⟩, by simp [ht], by simp [ht]⟩
    · show CMPObj.initialise ops o _ _ = _
      unfold CMPObj.initialise
      rw [e]
      show (CMP.initialise ops p0.ctxs o.scale _ _ o.memD o.memS o.memQ).map _ = _
      rw [e1]; rfl
    · exact ⟨e2.h_eq, e2.w_eq, e2.ctxs, h3, h2, e2.grids⟩

/-- A `ContextualMatrixProfile` object that receives the calls of a streaming calculation from some time on. -/
theorem CMP.fed_from (gops : GenOps G ℝ) {X : CtxStream M} {ops : CtxOps M} {m N : Nat} {Mq : Option Nat} {us : List (MOp α)} {o : CMPObj M ℝ}
    (hX : X.Follows ops (Mq.getD N + 1 - m) (N + 1 - m)) (ho : X.Room o) {b : Int} {D : List α → List α → Fl ℝ} (hm0 : 0 < m) (hD : ∀ x y, D x y ≠ .nan)
    (hN : m ≤ N) (hM : ∀ M', Mq = some M' → m ≤ M') (u0 : MSt α) (t0 : Seen ℝ) (ht0 : t0.cells = []) (h0 : SeenFits m N Mq b D u0 t0)
    (hv : u0.All m N Mq (fun u op => u.Valid m Mq op) us) (hr : X.Reach m N Mq u0 us)
    (hup : ∀ s ≤ (u0.run m N Mq us).s.length - N, ∀ t ≤ (u0.run m N Mq us).q.length - Mq.getD N, X.upto s t) (hat : X.At t0.ss t0.qs o) (n : Nat) :
    ∃ p0 p', (CMP.ops ops gops).initialise o n (Mq.getD N + 1 - m : Nat) (N + 1 - m : Nat) = .ok p0 ∧
      feed (CMP.ops ops gops) p0 ((MSt.allDeliveries m N Mq b D u0 us).map Delivery.event) = .ok p' ∧ X.Room p' ∧
      X.At ((u0.run m N Mq us).s.length - N) ((u0.run m N Mq us).q.length - Mq.getD N) p' ∧ ShowsContexts X D m N b (u0.run m N Mq us) p' := by
  obtain ⟨p, e1, e2⟩ := CMP.initialise_from gops hX o ho t0 ht0 hat n
  have hcalls : X.Calls (Mq.getD N + 1 - m) (N + 1 - m) t0 (MSt.allDeliveries m N Mq b D u0 us) := calls_stream hm0 hD hN hM us u0 t0 h0 hv hr hup
  obtain ⟨p', f1, f2⟩ := CMP.Follow.run hX _ p t0 e2 hcalls
  have hfit : SeenFits m N Mq b D (u0.run m N Mq us) (t0.run (MSt.allDeliveries m N Mq b D u0 us)) := SeenFits.run hm0 us u0 t0 h0 hv
  obtain ⟨c, hc, hinv⟩ := f2.inv
  obtain ⟨V, Q, J, g1, g2, g3, g4⟩ := hinv.grids
  refine ⟨{ o with st := some p }, { o with st := some p' }, e1, ?_, ⟨ho.some, ho.scale1, ho.scale2, ho.memD, ho.memS, ho.memQ⟩, .inr ⟨p', rfl, ?_, ?_, ?_⟩,
    p', V, Q, J, rfl, ⟨g1.items, g2.items, g3.items⟩, fun i hi j hj => ?_⟩
  · rw [CMP.feed_eq ops _ _ _ p rfl, f1]; rfl
  · rw [hinv.ctxs, ← hfit.ss, ← hfit.qs]; exact hc
  · rw [hinv.sShift, hfit.ss]
  · rw [hinv.qShift, hfit.qs]
  have hmin := g4 i hi j hj
  rw [hfit.ss] at hmin
  refine ⟨fun r c hd hq hs => ?_, ?_⟩
  · have hx := (hfit.mem _).mpr ⟨r, c, hd, rfl⟩
    exact hmin.lower _ rfl (fun x hx => f2.clean x hx.1) _ ⟨hx, hq, by exact_mod_cast hs⟩
  · rcases hmin.attained with h | ⟨hlt, s, hs, -, hx⟩
    · exact .inl h
    · right
      obtain rfl : s = _ := hs
      obtain ⟨r, c, hd, e⟩ := (hfit.mem _).mp hx.1
      simp only [Cell.mk.injEq] at e
      have hq := hx.2.1
      have hs := hx.2.2
      simp only [e.1, e.2.1] at hq hs
      exact ⟨r, c, hd, hq, by exact_mod_cast hs, e.2.2, hlt, e.1, e.2.1⟩

/-- The contexts `X`, with positions counted from point `a` of the series and `b` of the query, suit an object and the times at which it was added: its manager stands at the
beginning of `X` when it is first added, and can follow until the end. -/
structure Spec.CtxStream.Suits (X : CtxStream M) (ops : CtxOps M) (m N : Nat) (Mq : Option Nat) (a b : Nat) (o : CMPObj M ℝ) (l : List (Span (MSt α) (MOp α))) : Prop where
  follows : X.Follows ops (Mq.getD N + 1 - m) (N + 1 - m)
  room : X.Room o
  new : o.st = none
  start : X.pos 0 0 o.ctxs
  upto : ∀ y ∈ l, ∀ s ≤ ((y.start.since a b).run m N Mq y.ops).s.length - N, ∀ t ≤ ((y.start.since a b).run m N Mq y.ops).q.length - Mq.getD N, X.upto s t
  reach : ∀ y ∈ l, X.Reach m N Mq (y.start.since a b) y.ops

/-- What an object holds that was initialised several times, always for one generator. -/
theorem contextual_lives (gops : GenOps G ℝ) {X : CtxStream M} {ops : CtxOps M} {m N : Nat} {Mq : Option Nat} (hX : X.Follows ops (Mq.getD N + 1 - m) (N + 1 - m))
    (hm0 : 0 < m) (hN : m ≤ N) (hM : ∀ M', Mq = some M' → m ≤ M') (buffer : Option Int) (D : Nat → List α → List α → Fl ℝ) (a b : Nat) :
    ∀ (l : List (Span (MSt α) (MOp α))) (y : Span (MSt α) (MOp α)) (o : CMPObj M ℝ), X.Room o →
      (∀ z ∈ y :: l, (∃ id, z.ids = [id] ∧ ∀ x y, D id x y ≠ .nan) ∧ z.start.All m N Mq (fun u op => u.Valid m Mq op) z.ops ∧ X.Reach m N Mq (z.start.since a b) z.ops ∧
        ∀ s ≤ ((z.start.since a b).run m N Mq z.ops).s.length - N, ∀ t ≤ ((z.start.since a b).run m N Mq z.ops).q.length - Mq.getD N, X.upto s t) →
      Spec.Linked (fun u op => u.step m N Mq op) (y :: l) → Gone N Mq a b y.start → X.At (y.start.s.length - a - N) (y.start.q.length - b - Mq.getD N) o →
      ∃ z id p, (y :: l).getLast? = some z ∧ z.ids = [id] ∧
        live (CMP.ops ops gops) ((Mq.getD N + 1 - m : Nat) : Int) ((N + 1 - m : Nat) : Int) o
          ((y :: l).map fun y => (y.ids, MSt.allEvents m N Mq (bufferOf m Mq buffer) D y.ids y.start y.ops)) = .ok p ∧
        ShowsContexts X (D id) m N (bufferOf m Mq buffer) ((z.start.since a b).run m N Mq z.ops) p := by
  have hM' : m ≤ Mq.getD N := by
    cases Mq with
    | none => exact hN
    | some M' => exact hM M' rfl
  intro l
  induction l with
  | nil =>
    intro y o ho hl _ hg hat
    obtain ⟨⟨id, hi, hD⟩, hv, hr, hup⟩ := hl y (by simp)
    obtain ⟨p, p', e1, e2, -, -, e3⟩ := CMP.fed_from gops hX ho hm0 hD hN hM (y.start.since a b) ⟨y.start.s.length - a - N, y.start.q.length - b - Mq.getD N, []⟩ rfl
      (SeenFits.since m (bufferOf m Mq buffer) (D id) hg) (SameWindows.valid hN hM' y.ops _ _ (.since hg) hv) hr hup hat 1
    refine ⟨y, id, p', rfl, hi, ?_, e3⟩
    simp only [List.map_cons, List.map_nil, live]
    rw [hi, List.length_singleton, e1]
    simp only [bind, Except.bind]
    rw [C98_windows m N Mq buffer D [id] y.start a b hg y.ops hv, allEvents_single, e2]
  | cons y' l ih =>
    intro y o ho hl hk hg hat
    obtain ⟨⟨id, hi, hD⟩, hv, hr, hup⟩ := hl y (by simp)
    obtain ⟨p, p', e1, e2, e4, e5, -⟩ := CMP.fed_from gops hX ho hm0 hD hN hM (y.start.since a b) ⟨y.start.s.length - a - N, y.start.q.length - b - Mq.getD N, []⟩ rfl
      (SeenFits.since m (bufferOf m Mq buffer) (D id) hg) (SameWindows.valid hN hM' y.ops _ _ (.since hg) hv) hr hup hat 1
    obtain ⟨g1, g2, -⟩ := C98_since (K := ℝ) m N Mq y.start a b hg y.ops hv
    have hst : y'.start = y.start.run m N Mq y.ops := hk.1
    rw [g1, g2, List.length_drop, List.length_drop, ← hst] at e5
    obtain ⟨z, id', p2, r1, r2, r3, r4⟩ := ih y' p' e4 (fun z hz => hl z (List.mem_cons_of_mem _ hz)) hk.2 (by rw [hst]; exact hg.run y.ops _ hv) e5
    refine ⟨z, id', p2, by rw [List.getLast?_cons_cons]; exact r1, r2, ?_, r4⟩
    rw [List.map_cons, live, hi, List.length_singleton, e1]
    simp only [bind, Except.bind]
    rw [C98_windows m N Mq buffer D [id] y.start a b hg y.ops hv, allEvents_single, e2]
    exact r3

/-- **C99.** A session with a `StreamingCalculator` in which new `ContextualMatrixProfile` objects are added at any time, for one generator at a time, and may be added again, each
with a context manager that follows contexts of the streams: no act raises, and every object shows for each pair of contexts the smallest distance among the pairs that were
calculated since it was last added, and where it is. Positions and contexts are counted from the beginning of what the windows held when the object was first added
(`C98_since` explains `since`), also after it was added again. Partial: the restrictions of `C90_stream_session_partial` and of `C93_contextual_partial`; indices are not positions
in the streams (`C99_late_wrong`). -/
theorem C99_late_contextual_partial (memE : Nat → List (Fl ℝ)) (hmemE : ∀ n, (memE n).length = n) (memZ : ZN.Mem) (hmemZ : memZ.Ok) (ctx : CtxOps M)
    (π : Nat → α → ℝ) (m N : Nat) (Mq : Option Nat) (nDim : Nat) (buffer : Option Int)
    (as : List (SAct (GenKind × Nat) (CMPObj M ℝ) (MOp α))) (bs : List (Act GenKind (CMPObj M ℝ) (Streaming.Op ℝ)))
    (ha : StreamArgs m N Mq nDim buffer (SAct.gens as) [] [])
    (hacts : AreActs (fun u op => u.step m N Mq op) (IsStreamCall π m N Mq nDim (SAct.gens as)) (fun _ => True) 0 [] MSt.init as bs) (hcu : CaughtUp m N Mq [] MSt.init as)
    (hids : ∀ a ∈ as, a.Adds fun ids => ∃ id, ids = [id] ∧ id < (SAct.gens as).length)
    (hctx : ∀ x ∈ streamSpans m N Mq as, ∃ X : CtxStream M, ∀ y, x.2.head? = some y → X.Suits ctx m N Mq (y.start.s.length - N) (y.start.q.length - Mq.getD N) x.1 x.2) :
    ∃ cons, streamSession (CMP.ops ctx (GenKind.ops memE memZ)) (fun k => k.streaming memE memZ) m N (Mq.map fun M : Nat => (M : Int)) nDim buffer bs = .ok cons ∧
      List.Forall₂ (fun x c => ∃ y z id, x.2.head? = some y ∧ x.2.getLast? = some z ∧ z.ids = [id] ∧ c.2 = [id] ∧
        ∀ X : CtxStream M, X.Suits ctx m N Mq (y.start.s.length - N) (y.start.q.length - Mq.getD N) x.1 x.2 →
          ShowsContexts X (streamDist π m (SAct.gens as) id) m N (bufferOf m Mq buffer)
            ((z.start.since (y.start.s.length - N) (y.start.q.length - Mq.getD N)).run m N Mq z.ops) c.1) (streamSpans m N Mq as) cons := by
  set ops := CMP.ops ctx (GenKind.ops memE memZ) with hops
  set Δ := streamDist π m (SAct.gens as) with hΔ
  have hlast : ∀ x ∈ streamSpans m N Mq as, ∃ y z id p, x.2.head? = some y ∧ x.2.getLast? = some z ∧ z.ids = [id] ∧
      live ops ((Mq.getD N + 1 - m : Nat) : Int) ((N + 1 - m : Nat) : Int) x.1 (x.2.map fun y => (y.ids, MSt.allEvents m N Mq (bufferOf m Mq buffer) Δ y.ids y.start y.ops)) = .ok p ∧
      ∀ X : CtxStream M, X.Suits ctx m N Mq (y.start.s.length - N) (y.start.q.length - Mq.getD N) x.1 x.2 →
        ShowsContexts X (Δ id) m N (bufferOf m Mq buffer) ((z.start.since (y.start.s.length - N) (y.start.q.length - Mq.getD N)).run m N Mq z.ops) p := by
    intro x hx
    obtain ⟨hv, hk⟩ := streamSpans_valid π m N Mq nDim as bs hacts x hx
    obtain ⟨hne, hi⟩ := Spec.spans_mem _ _ (fun _ => True) as MSt.init [] hids (fun _ _ => trivial) (by simp) x hx
    obtain ⟨X, hX⟩ := hctx x hx
    cases hxl : x.2 with
    | nil => exact absurd hxl hne
    | cons y l =>
      have hX' := hX y (by rw [hxl]; rfl)
      rw [hxl] at hv hk hi hX'
      have hs := (hv y (by simp)).1
      have main : ∀ X : CtxStream M, X.Suits ctx m N Mq (y.start.s.length - N) (y.start.q.length - Mq.getD N) x.1 (y :: l) → ∃ z id p, (y :: l).getLast? = some z ∧ z.ids = [id] ∧
          live ops ((Mq.getD N + 1 - m : Nat) : Int) ((N + 1 - m : Nat) : Int) x.1
            ((y :: l).map fun y => (y.ids, MSt.allEvents m N Mq (bufferOf m Mq buffer) Δ y.ids y.start y.ops)) = .ok p ∧
          ShowsContexts X (Δ id) m N (bufferOf m Mq buffer) ((z.start.since (y.start.s.length - N) (y.start.q.length - Mq.getD N)).run m N Mq z.ops) p := by
        intro X hX
        refine contextual_lives (GenKind.ops memE memZ) hX.follows ha.pos ha.series ha.query buffer Δ
          (y.start.s.length - N) (y.start.q.length - Mq.getD N) l y x.1 hX.room ?_ hk
          ⟨le_rfl, le_rfl, fun h => ⟨hs h, by rw [hs h, h]; rfl⟩⟩ (.inl ⟨hX.new, by omega, by omega, hX.start⟩)
        intro z hz
        obtain ⟨id, e1, e2⟩ := (hi z hz).1
        exact ⟨⟨id, e1, streamDist_ne_nan π m _ id e2⟩, (hv z hz).2, hX.reach z hz, hX.upto z hz⟩
      obtain ⟨z, id, p, r1, r2, r3, -⟩ := main X hX'
      refine ⟨y, z, id, p, rfl, r1, r2, r3, fun X' hX' => ?_⟩
      obtain ⟨z', id', p', s1, s2, s3, s4⟩ := main X' hX'
      rw [r1, Option.some.injEq] at s1
      subst s1
      rw [r2, List.cons.injEq] at s2
      obtain ⟨rfl, -⟩ := s2
      rw [r3, Except.ok.injEq] at s3
      subst s3
      exact s4
  obtain ⟨cons, r1, r2⟩ := C90_stream_session_partial memE hmemE memZ hmemZ ops rfl π m N Mq nDim buffer as bs ha hacts hcu (by
    rw [streamLives_spans]
    intro x hx
    obtain ⟨z, hz, rfl⟩ := List.mem_map.mp hx
    obtain ⟨_, _, _, p, -, -, -, g, -⟩ := hlast z hz
    exact ⟨_, g⟩)
  refine ⟨cons, r1, ?_⟩
  rw [streamLives_spans, List.forall₂_map_left_iff, forall₂_iff_getElem?] at r2
  rw [forall₂_iff_getElem?]
  refine ⟨r2.1, fun i x c hx hc => ?_⟩
  obtain ⟨g1, g2⟩ := r2.2 i x c hx hc
  obtain ⟨y, z, id, p, g3, g4, g5, g6, g7⟩ := hlast x (List.mem_of_getElem? hx)
  dsimp only at g1 g2
  rw [g6] at g2
  refine ⟨y, z, id, g3, g4, g5, ?_, by rw [← Except.ok.inj g2]; exact g7⟩
  rw [g1, Life.ids, List.getLast?_map, g4]
  exact g5

/-! ### Contexts of equal length -/

/-- With contexts of equal length the columns reach the query context whenever they are calculated. -/
theorem chunk_reach (L : Nat) {m N : Nat} {Mq : Option Nat} (hpos : 0 < m) (hMm : m ≤ Mq.getD N) : ∀ (us : List (MOp α)) (u : MSt α),
    u.All m N Mq (fun u op => u.Valid m Mq op) us → (chunkStream L (Mq.getD N + 1 - m) (N + 1 - m)).Reach m N Mq u us
  | [], _, _ => trivial
  | x :: us, u, hv => by
    refine ⟨?_, chunk_reach L hpos hMm us _ hv.2⟩
    rintro k rfl hmore c - y hy -
    have hv1 : m ≤ u.s.length → m ≤ u.q.length := hv.1
    unfold MSt.More at hmore
    rw [lastN_length] at hmore ⊢
    rw [show (chunkStream L (Mq.getD N + 1 - m) (N + 1 - m)).qc c = [⟨0, (Mq.getD N + 1 - m : Nat), 0⟩] from rfl, List.mem_singleton] at hy
    subst hy
    have := hv1 (by omega)
    simp only
    omega

/-- Positions can be counted from the beginning of the first span in all of them. -/
theorem Gone.linked {m N : Nat} {Mq : Option Nat} {a b : Nat} : ∀ (l : List (Span (MSt α) (MOp α))) (y : Span (MSt α) (MOp α)),
    Spec.Linked (fun u op => u.step m N Mq op) (y :: l) → (∀ z ∈ y :: l, z.start.All m N Mq (fun u op => u.Valid m Mq op) z.ops) → Gone N Mq a b y.start →
    ∀ z ∈ y :: l, Gone N Mq a b z.start
  | [], y, _, _, hg, z, hz => by
    rw [List.mem_singleton] at hz
    rw [hz]
    exact hg
  | y' :: l, y, hk, hv, hg, z, hz => by
    rcases List.mem_cons.mp hz with rfl | hz
    · exact hg
    · have hst : y'.start = y.start.run m N Mq y.ops := hk.1
      exact Gone.linked l y' hk.2 (fun z hz => hv z (List.mem_cons_of_mem _ hz)) (by rw [hst]; exact hg.run y.ops _ (hv y (by simp))) z hz

/-- A new object with contexts of `L` points, in a calculation with `w` columns. -/
structure NewChunks (L w : Nat) (o : CMPObj Nat ℝ) : Prop where
  ctxs : o.ctxs = 0
  new : o.st = none
  scale1 : 1 ≤ o.scale
  scale2 : o.scale ≤ 2
  memD : o.memD.length = RB.capacity o.scale (w / L + 2)
  memS : o.memS.length = RB.capacity o.scale (w / L + 2)
  memQ : o.memQ.length = RB.capacity o.scale (w / L + 2)

/-- **C99, contexts of equal length.** New `ContextualMatrixProfile` objects with contexts of `L` points on the series and the query as one context, added at any time and again:
entry `j` is the smallest distance among the pairs calculated since it was last added whose column is in the context that now has number `j`, where the first context begins
with the first point that the series window held when the object was first added. No further conditions. Partial: as `C90_stream_session_partial`. -/
theorem C99_late_chunks_partial (memE : Nat → List (Fl ℝ)) (hmemE : ∀ n, (memE n).length = n) (memZ : ZN.Mem) (hmemZ : memZ.Ok) (L : Nat) (hL : 0 < L)
    (π : Nat → α → ℝ) (m N : Nat) (Mq : Option Nat) (nDim : Nat) (buffer : Option Int)
    (as : List (SAct (GenKind × Nat) (CMPObj Nat ℝ) (MOp α))) (bs : List (Act GenKind (CMPObj Nat ℝ) (Streaming.Op ℝ)))
    (ha : StreamArgs m N Mq nDim buffer (SAct.gens as) [] [])
    (hacts : AreActs (fun u op => u.step m N Mq op) (IsStreamCall π m N Mq nDim (SAct.gens as)) (fun _ => True) 0 [] MSt.init as bs) (hcu : CaughtUp m N Mq [] MSt.init as)
    (hids : ∀ a ∈ as, a.Adds fun ids => ∃ id, ids = [id] ∧ id < (SAct.gens as).length)
    (hnew : ∀ c ids, SAct.consumer c ids ∈ as → NewChunks L (N + 1 - m) c) :
    ∃ cons, streamSession (CMP.ops (chunkMgr L (Mq.getD N + 1 - m) (N + 1 - m)) (GenKind.ops memE memZ)) (fun k => k.streaming memE memZ) m N (Mq.map fun M : Nat => (M : Int))
        nDim buffer bs = .ok cons ∧
      List.Forall₂ (fun x c => ∃ y z id, x.2.head? = some y ∧ x.2.getLast? = some z ∧ z.ids = [id] ∧ c.2 = [id] ∧
        ∃ p V Q J, c.1.st = some p ∧ p.Holds 1 ((N + 1 - m) / L + 2) V Q J ∧ ∀ j < (N + 1 - m) / L + 2,
          let u := (z.start.since (y.start.s.length - N) (y.start.q.length - Mq.getD N)).run m N Mq z.ops
          let first := (j + (u.s.length - N) / L) * L
          let D := u.cell (streamDist π m (SAct.gens as) id) m (bufferOf m Mq buffer)
          (∀ r c', u.done r c' → first ≤ c' → c' < first + L → V 0 j ≤ D r c') ∧
          ((V 0 j = .pinf ∧ Q 0 j = -1 ∧ J 0 j = -1) ∨ ∃ r c' : Nat, u.done r c' ∧ (first ≤ c' ∧ c' < first + L) ∧ V 0 j = D r c' ∧ Q 0 j = (r : Int) ∧ J 0 j = (c' : Int)))
        (streamSpans m N Mq as) cons := by
  have hMm : m ≤ Mq.getD N := by
    cases e : Mq with
    | none => exact ha.series
    | some M' => exact ha.query M' e
  have hsuits : ∀ x ∈ streamSpans m N Mq as, ∀ y, x.2.head? = some y →
      (chunkStream L (Mq.getD N + 1 - m) (N + 1 - m)).Suits (chunkMgr L (Mq.getD N + 1 - m) (N + 1 - m)) m N Mq (y.start.s.length - N) (y.start.q.length - Mq.getD N) x.1 x.2 := by
    intro x hx y hy
    have ho := Spec.spans_objects _ (NewChunks L (N + 1 - m)) as MSt.init [] hnew (by simp) x hx
    obtain ⟨hv, hk⟩ := streamSpans_valid π m N Mq nDim as bs hacts x hx
    refine ⟨chunk_follows L _ _ hL (by omega), ⟨by simp [chunkStream], ho.scale1, ho.scale2, ho.memD, ho.memS, ho.memQ⟩, ho.new, ho.ctxs, fun _ _ _ _ _ _ => trivial, ?_⟩
    cases hxl : x.2 with
    | nil => simp
    | cons y' l =>
      rw [hxl] at hy hv hk
      cases Option.some.inj hy
      have hs := (hv y (by simp)).1
      intro z hz
      exact chunk_reach L ha.pos hMm _ _ (SameWindows.valid ha.series hMm z.ops _ _
        (.since (Gone.linked l y hk (fun z hz => (hv z hz).2) ⟨le_rfl, le_rfl, fun h => ⟨hs h, by rw [hs h, h]; rfl⟩⟩ z hz)) (hv z hz).2)
  obtain ⟨cons, h1, h2⟩ := C99_late_contextual_partial memE hmemE memZ hmemZ (chunkMgr L (Mq.getD N + 1 - m) (N + 1 - m)) π m N Mq nDim buffer as bs ha hacts hcu hids
    (fun x hx => ⟨_, hsuits x hx⟩)
  refine ⟨cons, h1, ?_⟩
  rw [forall₂_iff_getElem?] at h2 ⊢
  refine ⟨h2.1, fun i x c hx hc => ?_⟩
  obtain ⟨y, z, id, e1, e2, e3, e4, e5⟩ := h2.2 i x c hx hc
  obtain ⟨p, V, Q, J, g1, g2, g3⟩ := e5 _ (hsuits x (List.mem_of_getElem? hx) y e1)
  refine ⟨y, z, id, e1, e2, e3, e4, p, V, Q, J, g1, g2, fun j hj => ?_⟩
  have hmin := g3 0 (by simp [chunkStream]) j hj
  intro u first D
  have hin : ∀ c' : Nat, (chunkStream L (Mq.getD N + 1 - m) (N + 1 - m)).inSeries
      ((j + (chunkStream L (Mq.getD N + 1 - m) (N + 1 - m)).moved (u.s.length - N) : Nat) : Int) (c' : Int) ↔ first ≤ c' ∧ c' < first + L := by
    intro c'
    show ((j + (u.s.length - N) / L : Nat) : Int) * (L : Int) ≤ c' ∧ (c' : Int) < ((j + (u.s.length - N) / L : Nat) : Int) * (L : Int) + L ↔ _
    rw [← Nat.cast_mul]
    omega
  refine ⟨fun r c' hd a1 a2 => hmin.lower r c' hd ⟨rfl, by omega⟩ ((hin c').mpr ⟨a1, a2⟩), ?_⟩
  rcases hmin.attained with h | ⟨r, c', hd, -, a1, a2, -, a3, a4⟩
  · exact .inl h
  · exact .inr ⟨r, c', hd, (hin c').mp a1, a2, a3, a4⟩

/-! ### Concrete cases -/

/-- A new object with contexts of two points for windows with three columns. -/
def exChunkObj (K : Type) : CMPObj Nat K := ⟨0, 1, [[], [], []], [[], [], []], [[], [], []], none⟩

/-- Squared Euclidean distances of exact data, contextual matrix profiles that are added at any time. -/
def exLateCtxRun (bs : List (Act Unit (CMPObj Nat ℚ) (Streaming.Op ℚ))) : Except PyErr (List (List (List (Fl ℚ)) × List (List Int) × List (List Int))) :=
  (streamSession (CMP.ops (chunkMgr 2 3 3) (Eucl.genOps zeroMem (fun x : ℚ => x))) (fun _ : Unit => Eucl.streaming zeroMem 2) 1 3 (some 3) 1 none bs).map
    fun l => l.map fun c => exCtxShown c.1

set_option synthInstance.maxSize 1000 in
/-- Late objects do not count contexts and positions from the beginning of the streams: contexts of two points, series 1 5 2 8, query 9 9 4 5 3, windows of three points; one
object is added at the beginning and one when all points have been appended, then all columns are calculated. The contexts of the stream are 1 5 and 2 8; the first object shows
for them 5 at distance 0 (query position 3) and 2 at distance 1 (position 4). The second shows contexts 5 2 and 8, with positions in the windows. -/
theorem C99_late_wrong : exLateCtxRun [.generator () 0, .consumer (exChunkObj ℚ) [0], .call [0] (.series (.d2 [[.fin 1, .fin 5, .fin 2, .fin 8]] 4)),
      .call [0] (.query (.d2 [[.fin 9, .fin 9, .fin 4, .fin 5, .fin 3]] 5)), .consumer (exChunkObj ℚ) [0], .call [0] (.columns (fun _ => false) (.int 3))] =
    .ok [([[.fin 0], [.fin 1], [.pinf]], [[3], [4], [-1]], [[1], [2], [-1]]), ([[.fin 0], [.fin 9], [.pinf]], [[1], [1], [-1]], [[0], [2], [-1]])] := by
  decide +kernel

set_option synthInstance.maxSize 1000 in
/-- An object that is added again forgets its distances and goes on counting from where it was first added, contexts as well as positions: the first object was added at the
beginning and again when all points had been appended and the first column had been calculated. -/
example : exLateCtxRun [.generator () 0, .consumer (exChunkObj ℚ) [0], .call [0] (.series (.d2 [[.fin 1, .fin 5, .fin 2, .fin 8]] 4)),
      .call [0] (.query (.d2 [[.fin 9, .fin 9, .fin 4, .fin 5, .fin 3]] 5)), .call [0] (.columns (fun _ => false) (.int 1)), .again 0 [0], .consumer (exChunkObj ℚ) [0],
      .call [0] (.query (.d1 [.fin 6])), .call [0] (.columns (fun _ => false) (.int 3))] =
    .ok [([[.pinf], [.fin 1], [.pinf]], [[-1], [4], [-1]], [[-1], [2], [-1]]), ([[.fin 1], [.fin 4], [.pinf]], [[2], [3], [-1]], [[1], [2], [-1]])] := by
  decide +kernel

/-- The session `exLateActs` with objects that have contexts of two points. -/
example : ∃ a b d, streamSession (CMP.ops (chunkMgr 2 2 3) (GenKind.ops exStreamCase.memE exStreamCase.memZ)) (fun k => k.streaming exStreamCase.memE exStreamCase.memZ) 2 4 (some 3) 2 none
      (exLateActCalls (exChunkObj ℝ)) = .ok [(a, [1]), (b, [2]), (d, [3])] := by
  have hok := exStreamCase_ok (idss := [[0], [2]]) (by simp) (by simp) (by simp)
  have hcap : (3 : Nat) = RB.capacity 1 3 := by decide +kernel
  obtain ⟨cons, h1, h2⟩ := C99_late_chunks_partial exStreamCase.memE hok.memE exStreamCase.memZ hok.memZ 2 (by decide) exChan 2 4 (some 3) 2 none (exLateActs (exChunkObj ℝ))
    (exLateActCalls (exChunkObj ℝ)) (exLateActs_args _) (exLateActs_calls _) (exLateActs_filled _) (by simp [exLateActs, SAct.Adds, SAct.gens]) (by
      intro c' ids h
      simp [exLateActs] at h
      rcases h with ⟨rfl, -⟩ | ⟨rfl, -⟩ | ⟨rfl, -⟩ <;> exact ⟨rfl, rfl, le_rfl, by norm_num [exChunkObj], hcap, hcap, hcap⟩)
  obtain ⟨⟨a, ia⟩, l, ⟨_, y, i, -, e1, e2, e3, -⟩, h3, rfl⟩ := List.forall₂_cons_left_iff.mp h2
  obtain ⟨⟨b, ib⟩, l, ⟨_, z, j, -, f1, f2, f3, -⟩, h4, rfl⟩ := List.forall₂_cons_left_iff.mp h3
  obtain ⟨⟨d, id⟩, l, ⟨_, w, k, -, g1, g2, g3, -⟩, h5, rfl⟩ := List.forall₂_cons_left_iff.mp h4
  obtain rfl := List.forall₂_nil_left_iff.mp h5
  cases Option.some.inj e1
  cases Option.some.inj f1
  cases Option.some.inj g1
  cases e2; cases f2; cases g2
  dsimp only at e3 f3 g3
  subst e3 f3 g3
  exact ⟨a, b, d, h1⟩

end Verif
