import Verif.Props.Sessions
import Verif.Props.BatchProfile
import Verif.Lemmas.CaseExamples

/-!
# C90: consumers that are added late or again

Consequences of `C90_session_partial` for the z-normalised distance, for consumers that note their calls, and for `MatrixProfileLR`.
-/

namespace Verif
open Spec
variable {α C : Type}

/-- **C90, z-normalised Euclidean distance.** No restriction on the data. -/
theorem C90_session_znorm (memE : Nat → List (Fl ℝ)) (hmemE : ∀ n, (memE n).length = n) (memZ : ZN.Mem) (hmemZ : memZ.Ok)
    (ops : Ops (ColCache ℝ ⊕ ZN) C ℝ) (hops : ops.gen = GenKind.ops memE memZ) (shuffle : List Int → List Int) (hsh : ∀ l, (shuffle l).Perm l)
    (π : Nat → α → ℝ) (m : Nat) (s : List α) (query : Option (List α)) (nDim : Nat) (buffer : Option Int)
    (as : List (SAct (GenKind × Nat) C BOp)) (bs : List (Act GenKind C Anytime.Op)) (ha : BatchArgs m s query nDim buffer (SAct.gens as) [] [])
    (hz : ∀ k ∈ SAct.gens as, ∃ noise scale, k.1 = .znorm noise scale)
    (hacts : AreActs BSt.step (IsBatchCall m (query.getD s).length s.length (batchOrder shuffle m s query buffer)) (fun _ => True) 0 [] BSt.init as bs)
    (halive : ∀ x ∈ batchLives shuffle π m s query buffer as, ∃ c',
      live ops (((query.getD s).length + 1 - m : Nat) : Int) ((s.length + 1 - m : Nat) : Int) x.1 x.2 = .ok c') :
    ∃ cons, batchSession ops (fun k => k.prepare memE memZ) shuffle m (frameRows π nDim s) (query.map (frameRows π nDim)) buffer bs = .ok cons ∧
      List.Forall₂ (fun x c => c.2 = x.2.ids ∧
        live ops (((query.getD s).length + 1 - m : Nat) : Int) ((s.length + 1 - m : Nat) : Int) x.1 x.2 = .ok c.1) (batchLives shuffle π m s query buffer as) cons := by
  refine C90_session_partial memE hmemE memZ hmemZ ops hops shuffle hsh π m s query nDim buffer as bs ha hacts ?_ halive
  intro _ g hg
  obtain ⟨noise, scale, e⟩ := hz g hg
  rw [e]; trivial

/-- The times of the consumers of an `AnytimeCalculator`: for each addition the generators, the progress then, and the calculations since. -/
def batchSpans (as : List (SAct (GenKind × Nat) C BOp)) : List (C × List (Span BSt BOp)) := spans BSt.step BSt.init [] as

theorem received_batch (m : Nat) (selfJoin : Bool) (b : Int) (order : List Int) (D : Nat → List α → List α → Fl ℝ) (s q : List α) (ids : List Nat) (ops : List BOp) :
    ∀ u : BSt, received BSt.step (fun u op ids => u.events m selfJoin b order D s q ids op) ids u ops = BSt.allEvents m selfJoin b order D s q ids u ops := by
  induction ops with
  | nil => intro u; rfl
  | cons op ops ih => intro u; rw [received, BSt.allEvents, ih]

/-- What a consumer of `ids` receives during a time. -/
noncomputable def spanEvents (shuffle : List Int → List Int) (π : Nat → α → ℝ) (m : Nat) (s : List α) (query : Option (List α)) (buffer : Option Int)
    (kinds : List (GenKind × Nat)) (x : Span BSt BOp) : List (CEvent ℝ) :=
  BSt.allEvents m query.isNone (batchBuffer m query buffer) (batchOrder shuffle m s query buffer) (streamDist π m kinds) s (query.getD s) x.ids x.start x.ops

theorem batchLives_spans (shuffle : List Int → List Int) (π : Nat → α → ℝ) (m : Nat) (s : List α) (query : Option (List α)) (buffer : Option Int)
    (as : List (SAct (GenKind × Nat) C BOp)) : batchLives shuffle π m s query buffer as =
      (batchSpans as).map fun x => (x.1, x.2.map fun y => (y.ids, spanEvents shuffle π m s query buffer (SAct.gens as) y)) := by
  have := Spec.lives_spans BSt.step (fun u op ids => u.events m query.isNone (batchBuffer m query buffer) (batchOrder shuffle m s query buffer)
    (streamDist π m (SAct.gens as)) s (query.getD s) ids op) as BSt.init [] (by simp)
  unfold batchLives batchSpans
  rw [List.map_nil] at this
  rw [this]
  apply List.map_congr_left
  intro x _
  simp only [Span.life, spanEvents, received_batch]

/-- A session with consumers whose `initialise` forgets everything and that accept their calls: only the calculations since a consumer was added for the last
time count. -/
theorem batchSession_last (memE : Nat → List (Fl ℝ)) (hmemE : ∀ n, (memE n).length = n) (memZ : ZN.Mem) (hmemZ : memZ.Ok)
    (ops : Ops (ColCache ℝ ⊕ ZN) C ℝ) (hops : ops.gen = GenKind.ops memE memZ) (shuffle : List Int → List Int) (hsh : ∀ l, (shuffle l).Perm l)
    (π : Nat → α → ℝ) (m : Nat) (s : List α) (query : Option (List α)) (nDim : Nat) (buffer : Option Int)
    (as : List (SAct (GenKind × Nat) C BOp)) (bs : List (Act GenKind C Anytime.Op)) (ha : BatchArgs m s query nDim buffer (SAct.gens as) [] [])
    (hacts : AreActs BSt.step (IsBatchCall m (query.getD s).length s.length (batchOrder shuffle m s query buffer)) (fun _ => True) 0 [] BSt.init as bs)
    (hgood : (∃ a c, a < c ∧ .columns a c ∈ SAct.calls as) → ∀ g ∈ SAct.gens as, g.1.Good m (s.map (π g.2)) ((query.getD s).map (π g.2)))
    (hinit : ∀ c c' n, ops.initialise c n (((query.getD s).length + 1 - m : Nat) : Int) ((s.length + 1 - m : Nat) : Int) =
      ops.initialise c' n (((query.getD s).length + 1 - m : Nat) : Int) ((s.length + 1 - m : Nat) : Int))
    (p : List Nat → Prop) (hp : ∀ a ∈ as, a.Adds p) (Q : Span BSt BOp → C → Prop)
    (key : ∀ x : Span BSt BOp, p x.ids → (∀ a c, .columns a c ∈ x.ops → c ≤ s.length + 1 - m) → ∀ c, ∃ c0 c',
      ops.initialise c x.ids.length (((query.getD s).length + 1 - m : Nat) : Int) ((s.length + 1 - m : Nat) : Int) = .ok c0 ∧
      feed ops c0 (spanEvents shuffle π m s query buffer (SAct.gens as) x) = .ok c' ∧ Q x c') :
    ∃ cons, batchSession ops (fun k => k.prepare memE memZ) shuffle m (frameRows π nDim s) (query.map (frameRows π nDim)) buffer bs = .ok cons ∧
      List.Forall₂ (fun x c => ∃ y, x.2.getLast? = some y ∧ c.2 = y.ids ∧ Q y c.1) (batchSpans as) cons := by
  have hmem : ∀ x ∈ batchSpans as, x.2 ≠ [] ∧ ∀ y ∈ x.2, p y.ids ∧ ∀ op ∈ y.ops, ∀ a c, op = .columns a c → c ≤ s.length + 1 - m := by
    refine Spec.spans_mem BSt.step p (fun op => ∀ a c, op = .columns a c → c ≤ s.length + 1 - m) as BSt.init [] hp ?_ (by simp)
    rintro op hop a c rfl
    obtain ⟨u, o, h⟩ := AreActs.call as bs _ _ _ hacts _ hop
    cases o with
    | diagonals ints p => exact h.elim
    | columns ints start upto =>
      obtain ⟨a0, b0, -, -, -, -, h⟩ := h
      omega
  have hstep : ∀ x ∈ batchSpans as, ∀ y ∈ x.2, ∀ c, ∃ c', live ops (((query.getD s).length + 1 - m : Nat) : Int) ((s.length + 1 - m : Nat) : Int) c
      [(y.ids, spanEvents shuffle π m s query buffer (SAct.gens as) y)] = .ok c' ∧ Q y c' := by
    intro x hx y hy c
    obtain ⟨h1, h2⟩ := (hmem x hx).2 y hy
    obtain ⟨c0, c', e1, e2, e3⟩ := key y h1 (fun a e h => h2 _ h a e rfl) c
    exact ⟨c', by simp only [live, e1, e2, bind, Except.bind], e3⟩
  have hlast : ∀ x ∈ batchSpans as, ∃ y c', x.2.getLast? = some y ∧
      live ops (((query.getD s).length + 1 - m : Nat) : Int) ((s.length + 1 - m : Nat) : Int) x.1
        (x.2.map fun y => (y.ids, spanEvents shuffle π m s query buffer (SAct.gens as) y)) = .ok c' ∧ Q y c' := by
    intro x hx
    have hne := (hmem x hx).1
    obtain ⟨z, h1, h2⟩ := Spec.live_last ops _ _ hinit (x.2.map fun y => (y.ids, spanEvents shuffle π m s query buffer (SAct.gens as) y)) (by simpa using hne)
      (by
        intro z hz c
        obtain ⟨y, hy, rfl⟩ := List.mem_map.mp hz
        obtain ⟨c', h, -⟩ := hstep x hx y hy c
        exact ⟨c', h⟩) x.1 x.1
    rw [List.getLast?_map] at h1
    obtain ⟨y, hy, rfl⟩ := Option.map_eq_some_iff.mp h1
    obtain ⟨c', e1, e2⟩ := hstep x hx y (List.mem_of_getLast? hy) x.1
    exact ⟨y, c', hy, by rw [h2, e1], e2⟩
  obtain ⟨cons, r1, r2⟩ := C90_session_partial memE hmemE memZ hmemZ ops hops shuffle hsh π m s query nDim buffer as bs ha hacts hgood (by
    rw [batchLives_spans]
    intro x hx
    obtain ⟨z, hz, rfl⟩ := List.mem_map.mp hx
    obtain ⟨y, c', -, h, -⟩ := hlast z hz
    exact ⟨c', h⟩)
  refine ⟨cons, r1, ?_⟩
  rw [batchLives_spans, List.forall₂_map_left_iff, forall₂_iff_getElem?] at r2
  rw [forall₂_iff_getElem?]
  refine ⟨r2.1, fun i x c hx hc => ?_⟩
  obtain ⟨h1, h2⟩ := r2.2 i x c hx hc
  obtain ⟨y, c', h3, h4, h5⟩ := hlast x (List.mem_of_getElem? hx)
  dsimp only at h1 h2
  rw [h4] at h2
  cases h2
  refine ⟨y, h3, ?_, h5⟩
  rw [h1, Life.ids, List.getLast?_map, h3]
  rfl

/-- **C90, in terms of consumers that note their calls** (and begin anew when they are initialised): after a session each of them has noted exactly what was
calculated, by the generators it was last added for, since it was last added. -/
theorem C90_recorded_partial (memE : Nat → List (Fl ℝ)) (hmemE : ∀ n, (memE n).length = n) (memZ : ZN.Mem) (hmemZ : memZ.Ok)
    (shuffle : List Int → List Int) (hsh : ∀ l, (shuffle l).Perm l)
    (π : Nat → α → ℝ) (m : Nat) (s : List α) (query : Option (List α)) (nDim : Nat) (buffer : Option Int)
    (as : List (SAct (GenKind × Nat) (List (CEvent ℝ)) BOp)) (bs : List (Act GenKind (List (CEvent ℝ)) Anytime.Op))
    (ha : BatchArgs m s query nDim buffer (SAct.gens as) [] [])
    (hacts : AreActs BSt.step (IsBatchCall m (query.getD s).length s.length (batchOrder shuffle m s query buffer)) (fun _ => True) 0 [] BSt.init as bs)
    (hgood : (∃ a c, a < c ∧ .columns a c ∈ SAct.calls as) → ∀ g ∈ SAct.gens as, g.1.Good m (s.map (π g.2)) ((query.getD s).map (π g.2))) :
    ∃ cons, batchSession (recorder (GenKind.ops memE memZ)) (fun k => k.prepare memE memZ) shuffle m (frameRows π nDim s) (query.map (frameRows π nDim)) buffer bs = .ok cons ∧
      List.Forall₂ (fun x c => ∃ y, x.2.getLast? = some y ∧ c.2 = y.ids ∧
        c.1 = BSt.allEvents m query.isNone (batchBuffer m query buffer) (batchOrder shuffle m s query buffer) (streamDist π m (SAct.gens as)) s (query.getD s)
          y.ids y.start y.ops) (batchSpans as) cons := by
  refine batchSession_last memE hmemE memZ hmemZ (recorder (GenKind.ops memE memZ)) rfl shuffle hsh π m s query nDim buffer as bs ha hacts hgood (fun _ _ _ => rfl)
    (fun _ => True) ?_ (fun y c => c = spanEvents shuffle π m s query buffer (SAct.gens as) y) ?_
  · intro a _
    cases a <;> trivial
  · intro x _ _ c
    exact ⟨[], _, rfl, by rw [recorder_feed, List.nil_append], rfl⟩

/-- **C90, matrix profiles.** `MatrixProfileLR` consumers that are added at any time, possibly again, each time for one generator: at any moment the profile of a
consumer holds for every subsequence of the series the nearest subsequence of the query among the pairs calculated since the consumer was last added (left: at or
before, right: after), by the distance of the generator it was last added for. Partial for Euclidean generators when columns are calculated: see
`C66_euclidean_nan`. -/
theorem C90_profile_partial (memE : Nat → List (Fl ℝ)) (hmemE : ∀ n, (memE n).length = n) (memZ : ZN.Mem) (hmemZ : memZ.Ok)
    (shuffle : List Int → List Int) (hsh : ∀ l, (shuffle l).Perm l)
    (π : Nat → α → ℝ) (m : Nat) (s : List α) (query : Option (List α)) (nDim : Nat) (buffer : Option Int)
    (as : List (SAct (GenKind × Nat) (MP ℝ) BOp)) (bs : List (Act GenKind (MP ℝ) Anytime.Op))
    (ha : BatchArgs m s query nDim buffer (SAct.gens as) [] [])
    (hone : ∀ a ∈ as, a.Adds fun ids => ∃ id < (SAct.gens as).length, ids = [id])
    (hacts : AreActs BSt.step (IsBatchCall m (query.getD s).length s.length (batchOrder shuffle m s query buffer)) (fun _ => True) 0 [] BSt.init as bs)
    (hgood : (∃ a c, a < c ∧ .columns a c ∈ SAct.calls as) → ∀ g ∈ SAct.gens as, g.1.Good m (s.map (π g.2)) ((query.getD s).map (π g.2))) :
    ∃ cons, batchSession (MP.ops (GenKind.ops memE memZ)) (fun k => k.prepare memE memZ) shuffle m (frameRows π nDim s) (query.map (frameRows π nDim)) buffer bs = .ok cons ∧
      List.Forall₂ (fun x c => ∃ y, x.2.getLast? = some y ∧ c.2 = y.ids ∧ ∃ id, y.ids = [id] ∧
        IsProfile (fun r c => streamValue π m (SAct.gens as) id ((s.drop c).take m) (((query.getD s).drop r).take m)) ((query.getD s).length + 1 - m) (s.length + 1 - m)
          (y.start.covered query.isNone (batchBuffer m query buffer) (batchOrder shuffle m s query buffer) y.ops) c.1) (batchSpans as) cons := by
  have hql := batchQuery_le ha
  have hord := (batchOrder_ok hsh ha.series (fun h => (ha.bufferLen h).1) hql).1
  refine batchSession_last memE hmemE memZ hmemZ (MP.ops (GenKind.ops memE memZ)) rfl shuffle hsh π m s query nDim buffer as bs ha hacts hgood (fun _ _ _ => rfl)
    (fun ids => ∃ id < (SAct.gens as).length, ids = [id]) hone (fun y c => ∃ id, y.ids = [id] ∧
      IsProfile (fun r c => streamValue π m (SAct.gens as) id ((s.drop c).take m) (((query.getD s).drop r).take m)) ((query.getD s).length + 1 - m) (s.length + 1 - m)
        (y.start.covered query.isNone (batchBuffer m query buffer) (batchOrder shuffle m s query buffer) y.ops) c) ?_
  rintro ⟨ids, u, us⟩ ⟨id, hid, h⟩ hcol c
  dsimp only at h hcol
  subst h
  have hcells := allDeliveries_cells m query.isNone _ (batchBuffer_ge ha).1 _ (streamDist π m (SAct.gens as) id) s (query.getD s) ha.series hql hord
    (by intro h; rw [Option.isNone_iff_eq_none.mp h]; rfl) (batchBuffer_ge ha).2 (fun _ a b => streamDist_symm π m (SAct.gens as) id a b) us u hcol
  obtain ⟨p1, p2, n1, n2, n3, n4, n5⟩ := MP.nearest (fun r c => streamValue π m (SAct.gens as) id ((s.drop c).take m) (((query.getD s).drop r).take m))
    ((query.getD s).length + 1 - m) (s.length + 1 - m) _ _ (by
      intro r hr c hc
      by_cases hf : (r : Int) - c ≤ batchBuffer m query buffer ∧ (c : Int) - r ≤ batchBuffer m query buffer
      · right
        exact ⟨by unfold pairValue; rw [if_pos hf], fun hcov => covered_far (batchBuffer_ge ha).1 hord (batchBuffer_ge ha).2 hcov hf⟩
      · left
        rw [pairValue_far hf, streamDist_value π m (SAct.gens as) id hid]) _ hcells.valid hcells.of hcells.sound hcells.complete
  refine ⟨p1, p2, n1, ?_, id, rfl, ⟨n3, n4⟩, n5⟩
  unfold spanEvents
  rw [← allDeliveries_events, MP.feed_eq _ _ (no_shift _ _ _ _ _ _ _ _ _)]
  exact n2

/-- A session: a consumer `c` of the first generator; the diagonals 3 and 2 before an interrupt; two more generators; a consumer of the third; column 1; the first
consumer again, now for the third generator; the rest of the diagonals. -/
noncomputable def exActs {C : Type} (c : C) : List (SAct (GenKind × Nat) C BOp) :=
  [.generator (.euclidean 2, 1), .consumer c [0], .call (.diagonals 2), .generator (.znorm 0 (3 / 2), 0), .generator (.znorm (1 / 10) 1, 1), .consumer c [2],
   .call (.columns 1 2), .again 0 [2], .call (.diagonals 3)]

noncomputable def exActCalls {C : Type} (c : C) : List (Act GenKind C Anytime.Op) :=
  [.generator (.euclidean 2) 1, .consumer c [0], .call [0] (.diagonals (fun n => n == 2) (.float (.fin 1))), .generator (.znorm 0 (3 / 2)) 0,
   .generator (.znorm (1 / 10) 1) 1, .consumer c [2], .call [2, 0] (.columns (fun _ => false) (some (.int 1)) (.int 2)), .again 0 [2],
   .call [2] (.diagonals (fun _ => false) (.int 100))]

theorem exActs_calls {C : Type} (c : C) : AreActs BSt.step (IsBatchCall 2 5 5 [3, 2, 1]) (fun _ => True) 0 [] BSt.init (exActs c) (exActCalls c) := by
  obtain ⟨h1, h2, h3, -⟩ := exBatch_calls
  refine ⟨trivial, rfl, rfl, rfl, rfl, h1, by simp, by simp, by simp, trivial, rfl, by simp, trivial, rfl, by simp, rfl, rfl, h2, by simp, ?_, by simp,
    rfl, rfl, by simp, h3, by simp, by simp, by simp, trivial⟩
  intro id
  simp
  omega

theorem exActs_gens {C : Type} (c : C) : SAct.gens (exActs c) = exKinds := rfl

theorem exActs_args {C : Type} (c : C) : BatchArgs 2 exBatch.s none 2 (some 0) (SAct.gens (exActs c)) [] [] := by
  rw [exActs_gens]
  exact ⟨by decide, by decide, by simp, by decide, by simp [exBatch], by simp [exKinds], by simp, by decide, by simp⟩

/-- The times of the two consumers. -/
theorem exActs_spans {C : Type} (c : C) : batchSpans (exActs c) =
    [(c, [⟨[0], ⟨0, 0⟩, [.diagonals 2, .columns 1 2]⟩, ⟨[2], ⟨2, 2⟩, [.diagonals 3]⟩]), (c, [⟨[2], ⟨2, 0⟩, [.columns 1 2, .diagonals 3]⟩])] := rfl

/-- At the end the first consumer has noted what the third generator calculated on the diagonal 1, the second also what it calculated on column 1. -/
example : batchSession (recorder (GenKind.ops exBatch.memE exBatch.memZ)) (fun k => k.prepare exBatch.memE exBatch.memZ) List.reverse 2
      (frameRows exChan 2 exBatch.s) none (some 0) (exActCalls []) =
    .ok [(BSt.allEvents 2 true 0 [3, 2, 1] (streamDist exChan 2 exKinds) exBatch.s exBatch.s [2] ⟨2, 2⟩ [.diagonals 3], [2]),
      (BSt.allEvents 2 true 0 [3, 2, 1] (streamDist exChan 2 exKinds) exBatch.s exBatch.s [2] ⟨2, 0⟩ [.columns 1 2, .diagonals 3], [2])] := by
  have hok := exBatch_ok (idss := [[0], [2]]) (by simp) (by simp) (by simp)
  obtain ⟨cons, h1, h2⟩ := C90_recorded_partial exBatch.memE hok.memE exBatch.memZ hok.memZ List.reverse List.reverse_perm exChan 2 exBatch.s none 2 (some 0)
    (exActs []) (exActCalls []) (exActs_args []) (exActs_calls []) (fun _ => hok.good ⟨1, 2, by decide, by simp [exBatch]⟩)
  rw [exActs_spans] at h2
  rw [Option.map_none] at h1
  refine h1.trans ?_
  obtain ⟨⟨a, ia⟩, l, ⟨y, e1, e2, e3⟩, h3, rfl⟩ := List.forall₂_cons_left_iff.mp h2
  obtain ⟨⟨b, ib⟩, l, ⟨z, f1, f2, f3⟩, h4, rfl⟩ := List.forall₂_cons_left_iff.mp h3
  obtain rfl := List.forall₂_nil_left_iff.mp h4
  cases Option.some.inj e1
  cases Option.some.inj f1
  dsimp only at e2 e3 f2 f3
  subst e2 f2
  rw [e3, f3]
  rfl

/-- At the end the profile of the first consumer knows the pairs of the diagonal 1 only, that of the second also those of column 1. -/
example : ∃ p p' : MP ℝ, batchSession (MP.ops (GenKind.ops exBatch.memE exBatch.memZ)) (fun k => k.prepare exBatch.memE exBatch.memZ) List.reverse 2
      (frameRows exChan 2 exBatch.s) none (some 0) (exActCalls MP.new) = .ok [(p, [2]), (p', [2])] ∧
    IsProfile (fun r c => streamValue exChan 2 exKinds 2 ((exBatch.s.drop c).take 2) ((exBatch.s.drop r).take 2)) 4 4
      (BSt.covered true 0 [3, 2, 1] ⟨2, 2⟩ [.diagonals 3]) p ∧
    IsProfile (fun r c => streamValue exChan 2 exKinds 2 ((exBatch.s.drop c).take 2) ((exBatch.s.drop r).take 2)) 4 4
      (BSt.covered true 0 [3, 2, 1] ⟨2, 0⟩ [.columns 1 2, .diagonals 3]) p' := by
  have hok := exBatch_ok (idss := [[0], [2]]) (by simp) (by simp) (by simp)
  obtain ⟨cons, h1, h2⟩ := C90_profile_partial exBatch.memE hok.memE exBatch.memZ hok.memZ List.reverse List.reverse_perm exChan 2 exBatch.s none 2 (some 0)
    (exActs MP.new) (exActCalls MP.new) (exActs_args MP.new) (by simp [exActs, SAct.Adds, SAct.gens]) (exActs_calls MP.new)
    (fun _ => hok.good ⟨1, 2, by decide, by simp [exBatch]⟩)
  rw [exActs_spans] at h2
  rw [Option.map_none] at h1
  obtain ⟨⟨a, ia⟩, l, ⟨y, e1, e2, i, e3, e4⟩, h3, rfl⟩ := List.forall₂_cons_left_iff.mp h2
  obtain ⟨⟨b, ib⟩, l, ⟨z, f1, f2, j, f3, f4⟩, h4, rfl⟩ := List.forall₂_cons_left_iff.mp h3
  obtain rfl := List.forall₂_nil_left_iff.mp h4
  cases Option.some.inj e1
  cases Option.some.inj f1
  dsimp only at e2 e3 e4 f2 f3 f4
  subst e2 f2
  have e3 : [2] = [i] := e3
  have f3 : [2] = [j] := f3
  cases e3
  cases f3
  exact ⟨a, b, h1, e4, f4⟩

/-- The pairs of the two: the diagonals 1 and -1, without and with the rest of column 1. -/
example (r c : Nat) : BSt.covered true 0 [3, 2, 1] ⟨2, 0⟩ [.columns 1 2, .diagonals 3] r c ↔
    (1 ≤ c ∧ c < 2 ∧ ¬ ((r : Int) - c ≤ 0 ∧ (c : Int) - r ≤ 0)) ∨ (c : Int) - r = 1 ∨ (r : Int) - c = 1 := by
  simp [BSt.covered, BSt.covers, BSt.step]

/-- A session by calculation: a profile of the first generator after the first diagonal, then added again for the second generator; squared distances. -/
example : (([2, 3, 4, 5, 6] : List Nat).map fun n => (batchSession (MP.ops (Eucl.genOps zeroMem (fun x : ℚ => x))) (fun _ : Unit => Eucl.prepare zeroMem) List.reverse
      2 [[.fin 1, .fin 5, .fin 2, .fin 8, .fin 3], [.fin 0, .fin 0, .fin 0, .fin 1, .fin 1]] none (some 0)
      (([.generator () 0, .consumer MP.new [0], .call [0] (.diagonals (fun n => n == 1) (.float (.fin 1))), .generator () 1, .again 0 [1],
        .call [1] (.columns (fun _ => false) (some (.int 1)) (.int 2))] : List (Act Unit (MP ℚ) Anytime.Op)).take n)).map
        (fun l => l.map fun x => (MP.merged x.1.left x.1.right, x.2))) =
    [.ok [([.pinf, .pinf, .pinf, .pinf], [0])], .ok [([.fin 53, .pinf, .pinf, .fin 53], [0])], .ok [([.fin 53, .pinf, .pinf, .fin 53], [0])],
     .ok [([.pinf, .pinf, .pinf, .pinf], [1])], .ok [([.pinf, .fin 0, .pinf, .pinf], [1])]] := by
  decide +kernel

end Verif
