import Verif.Lemmas.BatchCells

/-!
# C67: the matrix profile at any moment of a batch calculation
-/

namespace Verif
open Spec
variable {α K : Type}

/-- The distance of a generator as a number. -/
noncomputable def GenKind.value (m : Nat) : GenKind → List ℝ → List ℝ → ℝ
  | .euclidean _, a, b => Real.sqrt (sqd m (seqOf a) (seqOf b) 0 0)
  | .znorm noise _, a, b => zdist m noise (seqOf a) (seqOf b) 0 0

/-- The distances of all generators as functions of frames, as numbers. -/
noncomputable def streamValue (π : Nat → α → ℝ) (m : Nat) (kinds : List (GenKind × Nat)) (id : Nat) (a b : List α) : ℝ :=
  match kinds[id]? with
  | some (k, ch) => k.value m (a.map (π ch)) (b.map (π ch))
  | none => 0

theorem streamDist_value (π : Nat → α → ℝ) (m : Nat) (kinds : List (GenKind × Nat)) (id : Nat) (h : id < kinds.length) (a b : List α) :
    streamDist π m kinds id a b = .fin (streamValue π m kinds id a b) := by
  unfold streamDist streamValue
  rw [List.getElem?_eq_getElem h]
  obtain ⟨k, ch⟩ := kinds[id]
  cases k <;> rfl

theorem batchQuery_le {m : Nat} {s : List α} {query : Option (List α)} {nDim : Nat} {buffer : Option Int} {kinds : List (GenKind × Nat)}
    {idss : List (List Nat)} {needed : List Nat} (ha : BatchArgs m s query nDim buffer kinds idss needed) : m ≤ (query.getD s).length := by
  cases query with
  | none => exact ha.series
  | some q' => exact ha.queryLen q' rfl

theorem batchBuffer_ge {m : Nat} {s : List α} {query : Option (List α)} {nDim : Nat} {buffer : Option Int} {kinds : List (GenKind × Nat)}
    {idss : List (List Nat)} {needed : List Nat} (ha : BatchArgs m s query nDim buffer kinds idss needed) :
    -1 ≤ batchBuffer m query buffer ∧ (query.isNone = false → batchBuffer m query buffer = -1) := by
  cases query with
  | none => exact ⟨(ha.bufferLen rfl).1, fun h => by cases h⟩
  | some q' => exact ⟨le_rfl, fun _ => rfl⟩

/-- The cells that a consumer of generator `id` receives. -/
theorem batch_cells {shuffle : List Int → List Int} (hsh : ∀ l, (shuffle l).Perm l) {π : Nat → α → ℝ} {m : Nat} {s : List α} {query : Option (List α)}
    {nDim : Nat} {buffer : Option Int} {kinds : List (GenKind × Nat)} {idss : List (List Nat)} {needed : List Nat}
    (ha : BatchArgs m s query nDim buffer kinds idss needed) {us : List BOp} {os : List Anytime.Op}
    (hc : AreBatchCalls m (query.getD s).length s.length (batchOrder shuffle m s query buffer) BSt.init us os) (id : Nat) :
    CellsAre (pairValue (streamDist π m kinds id) m (batchBuffer m query buffer) s (query.getD s)) ((query.getD s).length + 1 - m) (s.length + 1 - m)
      (BSt.init.covered query.isNone (batchBuffer m query buffer) (batchOrder shuffle m s query buffer) us)
      (allDeliveries m query.isNone (batchBuffer m query buffer) (batchOrder shuffle m s query buffer) (streamDist π m kinds id) s (query.getD s) BSt.init us) := by
  have hql := batchQuery_le ha
  have hord := (batchOrder_ok hsh ha.series (fun h => (ha.bufferLen h).1) hql).1
  exact allDeliveries_cells m query.isNone _ (batchBuffer_ge ha).1 _ _ s (query.getD s) ha.series hql hord
    (by intro h; rw [Option.isNone_iff_eq_none.mp h]; rfl) (batchBuffer_ge ha).2 (fun _ a b => streamDist_symm π m kinds id a b) us _ hc.columns_le

/-- **C67.** `MatrixProfileLR` consumers of an `AnytimeCalculator` with any channels and generators, after any sequence of (partial, possibly
interrupted) `calculate_diagonals` and `calculate_columns` calls: at any moment the profile of a consumer holds for every subsequence of the
series the nearest subsequence of the query among the pairs calculated so far (left: at or before, right: after). Partial for Euclidean
generators when columns are calculated: see `C66_euclidean_nan`. -/
theorem C67_profile_partial (memE : Nat → List (Fl ℝ)) (hmemE : ∀ n, (memE n).length = n) (memZ : ZN.Mem) (hmemZ : memZ.Ok)
    (shuffle : List Int → List Int) (hsh : ∀ l, (shuffle l).Perm l) (π : Nat → α → ℝ) (m : Nat) (s : List α) (query : Option (List α)) (nDim : Nat)
    (buffer : Option Int) (kinds : List (GenKind × Nat)) (ids : List Nat) (needed : List Nat)
    (ha : BatchArgs m s query nDim buffer kinds (ids.map fun id => [id]) needed) (us : List BOp) (os : List Anytime.Op)
    (hc : AreBatchCalls m (query.getD s).length s.length (batchOrder shuffle m s query buffer) BSt.init us os)
    (hgood : (∃ a c, a < c ∧ .columns a c ∈ us) → ∀ g ∈ kinds, g.1.Good m (s.map (π g.2)) ((query.getD s).map (π g.2))) :
    ∃ cons', batchAll (MP.ops (GenKind.ops memE memZ)) shuffle (kinds.map fun k => (k.1.prepare memE memZ, k.2)) (ids.map fun id => (MP.new, [id])) needed m
        (frameRows π nDim s) (query.map (frameRows π nDim)) buffer os = .ok cons' ∧
      List.Forall₂ (fun id c => c.2 = [id] ∧
        IsProfile (fun r c => streamValue π m kinds id ((s.drop c).take m) (((query.getD s).drop r).take m)) ((query.getD s).length + 1 - m) (s.length + 1 - m)
          (BSt.init.covered query.isNone (batchBuffer m query buffer) (batchOrder shuffle m s query buffer) us) c.1) ids cons' := by
  have hql := batchQuery_le ha
  have hord := (batchOrder_ok hsh ha.series (fun h => (ha.bufferLen h).1) hql).1
  have hid : ∀ id ∈ ids, id < kinds.length := fun id h => ha.ids [id] (List.mem_map_of_mem h) id (by simp)
  obtain ⟨p0, i1, -⟩ := MP.initialise_rep (K := ℝ) ((query.getD s).length + 1 - m) (s.length + 1 - m)
  have key : ∀ (i : Nat) (id : Nat), ids[i]? = some id → ∃ x : MP ℝ × List Nat, (x.2 = [id] ∧
        IsProfile (fun r c => streamValue π m kinds id ((s.drop c).take m) (((query.getD s).drop r).take m)) ((query.getD s).length + 1 - m) (s.length + 1 - m)
          (BSt.init.covered query.isNone (batchBuffer m query buffer) (batchOrder shuffle m s query buffer) us) x.1) ∧
      feed (MP.ops (GenKind.ops memE memZ)) p0 (BSt.allEvents m query.isNone (batchBuffer m query buffer) (batchOrder shuffle m s query buffer)
        (streamDist π m kinds) s (query.getD s) [id] BSt.init us) = .ok x.1 := by
    intro i id hi
    have hid := hid id (List.mem_of_getElem? hi)
    have hcells := batch_cells hsh (π := π) ha hc id
    obtain ⟨p1, p2, n1, n2, n3, n4, n5⟩ := MP.nearest (fun r c => streamValue π m kinds id ((s.drop c).take m) (((query.getD s).drop r).take m))
      ((query.getD s).length + 1 - m) (s.length + 1 - m) _ _ (by
        intro r hr c hc
        by_cases hf : (r : Int) - c ≤ batchBuffer m query buffer ∧ (c : Int) - r ≤ batchBuffer m query buffer
        · right
          exact ⟨by unfold pairValue; rw [if_pos hf], fun hcov => covered_far (batchBuffer_ge ha).1 hord (batchBuffer_ge ha).2 hcov hf⟩
        · left
          rw [pairValue_far hf, streamDist_value π m kinds id hid]) _ hcells.valid hcells.of hcells.sound hcells.complete
    rw [i1] at n1
    cases n1
    refine ⟨(p2, [id]), ⟨rfl, ⟨n3, n4⟩, n5⟩, ?_⟩
    rw [← allDeliveries_events, MP.feed_eq _ _ (no_shift _ _ _ _ _ _ _ _ _)]
    exact n2
  obtain ⟨cons', l1, l2⟩ := exists_list (fun _ (id : Nat) (x : MP ℝ × List Nat) => (x.2 = [id] ∧
        IsProfile (fun r c => streamValue π m kinds id ((s.drop c).take m) (((query.getD s).drop r).take m)) ((query.getD s).length + 1 - m) (s.length + 1 - m)
          (BSt.init.covered query.isNone (batchBuffer m query buffer) (batchOrder shuffle m s query buffer) us) x.1) ∧
      feed (MP.ops (GenKind.ops memE memZ)) p0 (BSt.allEvents m query.isNone (batchBuffer m query buffer) (batchOrder shuffle m s query buffer)
        (streamDist π m kinds) s (query.getD s) [id] BSt.init us) = .ok x.1) ids key
  refine ⟨cons', ?_, ?_⟩
  · refine C66_batch_feed_partial memE hmemE memZ hmemZ (MP.ops (GenKind.ops memE memZ)) rfl shuffle hsh π m s query nDim buffer kinds
      (ids.map fun id => (MP.new, [id])) (ids.map fun id => (p0, [id])) cons' needed (by simpa [List.map_map, Function.comp_def] using ha) ?_ us os hc hgood ?_
    · rw [List.forall₂_map_left_iff, List.forall₂_map_right_iff, List.forall₂_same]
      exact fun _ _ => ⟨rfl, i1⟩
    · unfold AllFed
      rw [List.forall₂_map_left_iff, forall₂_iff_getElem?]
      refine ⟨l1, fun i id x hi hx => ?_⟩
      obtain ⟨⟨h1, -⟩, h2⟩ := l2 i id x hi hx
      exact ⟨h1, h2⟩
  · rw [forall₂_iff_getElem?]
    exact ⟨l1, fun i id x hi hx => (l2 i id x hi hx).1⟩

theorem covered_diagonals {selfJoin : Bool} {b : Int} {order : List Int} (us : List BOp) : ∀ u : BSt, ∀ d ∈ order.take (us.foldl BSt.step u).next,
    d ∈ order.take u.next ∨ ∀ r c : Nat, ((c : Int) - r = d ∨ (selfJoin = true ∧ (r : Int) - c = d)) → u.covered selfJoin b order us r c := by
  induction us with
  | nil => intro u d hd; exact .inl hd
  | cons op us ih =>
    intro u d hd
    rcases ih (u.step op) d hd with h | h
    · cases op with
      | columns a c => exact .inl h
      | diagonals n =>
        have h : d ∈ order.take (max u.next n) := h
        by_cases hn : n ≤ u.next
        · left; rwa [max_eq_left hn] at h
        · rw [max_eq_right (by omega), ← List.take_append_drop u.next (order.take n), List.take_take, min_eq_left (by omega)] at h
          rcases List.mem_append.mp h with h | h
          · exact .inl h
          · right
            rintro r c (e | ⟨e1, e2⟩)
            · exact .inl (.inl (by rw [e]; exact h))
            · exact .inl (.inr ⟨e1, by rw [e2]; exact h⟩)
    · exact .inr fun r c hrc => .inr (h r c hrc)

/-- **C67, completed calculations.** Once all diagonals are calculated the pairs calculated are those outside the trivial match band: all pairs if there is a query.
The profile is then the brute-force one. -/
theorem C67_complete (shuffle : List Int → List Int) (hsh : ∀ l, (shuffle l).Perm l) (m : Nat) (s : List α) (query : Option (List α))
    (buffer : Option Int) (hs : m ≤ s.length) (hq : ∀ q, query = some q → m ≤ q.length) (hb : query = none → -1 ≤ buffer.getD (m / 2)) (us : List BOp)
    (hdone : (us.foldl BSt.step BSt.init).next = (batchOrder shuffle m s query buffer).length) (r c : Nat) (hr : r < (query.getD s).length + 1 - m)
    (hc : c < s.length + 1 - m) :
    BSt.init.covered query.isNone (batchBuffer m query buffer) (batchOrder shuffle m s query buffer) us r c ↔
      (query = none → Apart (buffer.getD (m / 2)) r c) := by
  have hql : m ≤ (query.getD s).length := by
    cases query with
    | none => exact hs
    | some q' => exact hq q' rfl
  obtain ⟨ho, -, hmem⟩ := batchOrder_ok hsh hs hb hql
  have hb1 : -1 ≤ batchBuffer m query buffer ∧ (query.isNone = false → batchBuffer m query buffer = -1) := by
    cases query with
    | none => exact ⟨hb rfl, fun h => by cases h⟩
    | some q' => exact ⟨le_rfl, fun _ => rfl⟩
  have hall := covered_diagonals (selfJoin := query.isNone) (b := batchBuffer m query buffer) (order := batchOrder shuffle m s query buffer) us BSt.init
  rw [hdone, List.take_length] at hall
  have hall' : ∀ d ∈ batchOrder shuffle m s query buffer, ∀ r c : Nat, ((c : Int) - r = d ∨ (query.isNone = true ∧ (r : Int) - c = d)) →
      BSt.init.covered query.isNone (batchBuffer m query buffer) (batchOrder shuffle m s query buffer) us r c := by
    intro d hd r c h
    rcases hall d hd with h0 | h0
    · simp [BSt.init] at h0
    · exact h0 r c h
  constructor
  · rintro h rfl
    unfold Apart
    rw [abs_lt_iff_not]
    have := covered_far hb1.1 ho hb1.2 h
    have e : batchBuffer m (none : Option (List α)) buffer = buffer.getD (m / 2) := rfl
    rw [e] at this
    omega
  · intro h
    cases query with
    | none =>
      have h := h rfl
      unfold Apart at h
      rw [abs_lt_iff_not] at h
      have e : batchBuffer m (none : Option (List α)) buffer = buffer.getD (m / 2) := rfl
      simp only [Option.getD_none] at hr
      by_cases hrc : r ≤ c
      · exact hall' ((c : Int) - r) (by rw [hmem]; simp only [Option.isNone_none, if_true, e]; omega) r c (.inl rfl)
      · exact hall' ((r : Int) - c) (by rw [hmem]; simp only [Option.isNone_none, if_true, e]; omega) r c (.inr ⟨rfl, rfl⟩)
    | some q =>
      simp only [Option.getD_some] at hr
      exact hall' ((c : Int) - r) (by rw [hmem]; simp only [Option.isNone_some, Bool.false_eq_true, if_false, Option.getD_some]; omega) r c (.inl rfl)

theorem covered_append {selfJoin : Bool} {b : Int} {order : List Int} (us us' : List BOp) : ∀ u : BSt, ∀ r c, u.covered selfJoin b order us r c →
    u.covered selfJoin b order (us ++ us') r c := by
  induction us with
  | nil => intro u r c h; exact h.elim
  | cons op us ih =>
    rintro u r c (h | h)
    · exact .inl h
    · exact .inr (ih _ r c h)

/-- **C67, anytime.** More calculations never raise an entry of the left, right or merged profile. In particular every entry is at any moment an upper bound of the
final one. -/
theorem C67_monotone [LinearOrder K] (d : Nat → Nat → K) (h w : Nat) (selfJoin : Bool) (b : Int) (order : List Int) (us us' : List BOp) (p p' : MP K)
    (hp : IsProfile d h w (BSt.init.covered selfJoin b order us) p) (hp' : IsProfile d h w (BSt.init.covered selfJoin b order (us ++ us')) p')
    (c : Nat) (hc : c < w) :
    ∃ l r v l' r' v', p.left[c]? = some l ∧ p.right[c]? = some r ∧ (MP.merged p.left p.right)[c]? = some v ∧
      p'.left[c]? = some l' ∧ p'.right[c]? = some r' ∧ (MP.merged p'.left p'.right)[c]? = some v' ∧ l' ≤ l ∧ r' ≤ r ∧ v' ≤ v := by
  have key : ∀ (P Q : Nat → Prop), (∀ r, P r → Q r) → ∀ (v v' : Fl K) (i i' : Int), IsNearest (fun r => d r c) h P v i → IsNearest (fun r => d r c) h Q v' i' → v' ≤ v := by
    intro P Q hPQ v v' i i' h1 h2
    rcases h1 with ⟨rfl, -⟩ | ⟨x, hx, hPx, rfl, -, -⟩
    · rcases h2 with ⟨rfl, -⟩ | ⟨y, -, -, rfl, -⟩
      · exact le_rfl
      · exact (Fl.fin_lt_pinf _).le
    · rcases h2 with ⟨rfl, hno⟩ | ⟨y, -, -, rfl, -, hmin⟩
      · exact absurd (hPQ x hPx) (hno x hx)
      · have := hmin x hx (hPQ x hPx)
        simpa using this
  obtain ⟨l, r, v, li, ri, i, a1, a2, a3, -, -, -, b1, b2, b3⟩ := hp.entries c hc
  obtain ⟨l', r', v', li', ri', i', a1', a2', a3', -, -, -, b1', b2', b3'⟩ := hp'.entries c hc
  have hsub := fun r => covered_append (selfJoin := selfJoin) (b := b) (order := order) us us' BSt.init r c
  exact ⟨l, r, v, l', r', v', a1, a2, a3, a1', a2', a3', key _ _ (fun r h => ⟨hsub r h.1, h.2⟩) _ _ _ _ b1 b1',
    key _ _ (fun r h => ⟨hsub r h.1, h.2⟩) _ _ _ _ b2 b2', key _ _ hsub _ _ _ _ b3 b3'⟩

/-! ### Concrete cases -/

/-- Two consumers of the generators 2 and 0 of `exKinds`; all diagonals except the last by an interrupt, then a column, then the rest. -/
example : BatchArgs 2 [((1, 2) : ℤ × ℤ), (5, 0), (2, 7), (8, 1), (3, 3)] none 2 (some 0) exKinds ([2, 0].map fun id => [id]) [0, 2] := by
  refine ⟨by decide, by decide, by simp, by decide, by simp, ?_, ?_, by decide, ?_⟩
  · simp [exKinds]
  · simp [exKinds]
  · intro id; simp; omega

example : AreBatchCalls 2 5 5 [3, 2, 1] BSt.init [.diagonals 2, .columns 1 2, .diagonals 3]
      [.diagonals (fun n => n == 2) (.float (.fin 1)), .columns (fun _ => false) (some (.int 1)) (.int 2), .diagonals (fun _ => false) (.int 100)] := by
  have hv : valuesUpto 2 5 5 [3, 2, 1] 3 = 6 := rfl
  refine ⟨⟨6, .inr ⟨1, rfl, by norm_num, by norm_num, ?_⟩, by decide, by decide, ?_, .inr (.inr rfl)⟩,
    ⟨1, 2, .inr ⟨_, rfl, .inl rfl⟩, by decide, .inl rfl, by simp, .inl (by decide)⟩, ⟨100, .inl rfl, by decide, by decide, ?_, .inl rfl⟩, trivial⟩
  · simp only [List.length_cons, List.length_nil, hv]
    norm_num
  · intro k _ hk
    have : k = 0 ∨ k = 1 := by omega
    rcases this with rfl | rfl <;> exact ⟨by decide, rfl⟩
  · intro k h1 hk
    have h1 : 2 ≤ k := h1
    have : k = 2 := by omega
    subst this
    exact ⟨by decide, rfl⟩

/-- The pairs calculated by the first two calls. -/
example : ((List.range 4).map fun r => (List.range 4).map fun c =>
      decide ((c : Int) - r ∈ [3, 2] ∨ (r : Int) - c ∈ [3, 2] ∨ (1 ≤ c ∧ c < 2 ∧ ¬ ((r : Int) - c ≤ 0 ∧ (c : Int) - r ≤ 0)))) =
    [[false, true, true, true], [false, false, false, true], [true, true, false, false], [true, true, false, false]] := by decide

example (r c : Nat) : BSt.init.covered true 0 [3, 2, 1] [.diagonals 2, .columns 1 2] r c ↔
    (c : Int) - r ∈ [3, 2] ∨ (r : Int) - c ∈ [3, 2] ∨ (1 ≤ c ∧ c < 2 ∧ ¬ ((r : Int) - c ≤ 0 ∧ (c : Int) - r ≤ 0)) := by
  simp [BSt.covered, BSt.covers, BSt.init, or_assoc]

/-- The profiles after the first diagonal, after the column, and at the end; squared distances. -/
example : (([0, 1, 2, 3] : List Nat).map fun n => (batchAll (MP.ops (Eucl.genOps zeroMem (fun x : ℚ => x))) List.reverse [(Eucl.prepare zeroMem, 0)]
      [(MP.new, [0])] [0] 2 [[.fin 1, .fin 5, .fin 2, .fin 8, .fin 3]] none (some 0)
      (([.diagonals (fun n => n == 1) (.float (.fin 1)), .columns (fun _ => false) (some (.int 1)) (.int 2), .diagonals (fun _ => false) (.int 100)] :
        List Anytime.Op).take n)).map
        (fun l => l.map fun x => MP.merged x.1.left x.1.right)) =
    [.ok [[.pinf, .pinf, .pinf, .pinf]], .ok [[.fin 53, .pinf, .pinf, .fin 53]], .ok [[.fin 53, .fin 10, .pinf, .fin 53]],
     .ok [[.fin 10, .fin 10, .fin 10, .fin 10]]] := by
  decide +kernel

end Verif
