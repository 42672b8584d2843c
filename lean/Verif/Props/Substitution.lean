import Verif.Lemmas.EuclideanPairs
import Verif.Model.Assembly
import Verif.Lemmas.CaseExamples

/-!
# C109: calculators know their generators only by their answers; Euclidean generators on moved data (C107)
-/

namespace Verif
open Spec
variable {G G' C K : Type}

/-- **C109, batch.** Two calculations with the same arguments, calls and consumers, but other generators and other data of the same shape. If the generators bound to the
data are in states that give the same answers to all requests inside the distance matrix, now and after further requests, then the calculations end in the same way: with the
same exception, or every consumer in the same state. -/
theorem C109_batch {R : Nat → G → G' → Prop} {ops : Ops G C K} {ops' : Ops G' C K} (hc : SameConsumers ops ops') (shuffle : List Int → List Int)
    (hsh : ∀ l, ∀ d ∈ shuffle l, d ∈ l) {gens : List ((Int → List (Fl K) → Option (List (Fl K)) → Except PyErr G) × Nat)}
    {gens' : List ((Int → List (Fl K) → Option (List (Fl K)) → Except PyErr G') × Nat)} (consumers : List (C × List Nat)) (needed : List Nat) (m : Int)
    {series series' : List (List (Fl K))} {query query' : Option (List (List (Fl K)))} (buffer : Option Int) (calls : List Anytime.Op)
    (hs : series'.length = series.length ∧ Anytime.npCols series' = Anytime.npCols series)
    (hq : (query.getD series).length = (query'.getD series').length ∧ Anytime.npCols (query'.getD series') = Anytime.npCols (query.getD series)) (hj : query'.isNone = query.isNone)
    (hg : Answers (Anytime.npCols (query.getD series) - m + 1) (Anytime.npCols series - m + 1) R ops.gen ops'.gen)
    (hgens : List.Forall₂ (fun x y => y.2 = x.2 ∧ PreparedAlike m series series' (query.getD series) (query'.getD series') query.isNone R x.2 x.1 y.1) gens gens') :
    batchAll ops' shuffle gens' consumers needed m series' query' buffer calls = batchAll ops shuffle gens consumers needed m series query buffer calls := by
  refine (Alike.eq ?_).symm
  unfold batchAll
  exact (anytimeInit_pair shuffle hsh m buffer hs hq hj).bind fun a b h =>
    (anytimeGenerators_pair m query.isNone hs.1 hq.1.symm (fun h => by cases query with | none => rfl | some q => cases h) hgens h).bind fun a b h =>
      (anytimeConsumers_pair hc consumers h).bind fun a b h => (anytimeRun_pair hg hc needed calls h).bind fun a b h => .ok h.base.cons.symm

/-- **C109, streaming.** Columns have to agree only where the windows of the calculator hold data, and only while `Ready` holds for the numbers of points received (in a
self-join the number for the query stays `-1`). -/
theorem C109_stream {Ready : Int → Int → Prop} {T : Nat → List (Fl K) → List (Fl K) → Prop} {R : Int → Int → Nat → G → G' → Prop} {ops : Ops G C K} {ops' : Ops G' C K}
    (hc : SameConsumers ops ops') {gens : List ((Int → Int → Option Int → Except PyErr G) × Nat)} {gens' : List ((Int → Int → Option Int → Except PyErr G') × Nat)}
    (consumers : List (C × List Nat)) (needed : List Nat) (m seriesWindow : Int) (queryWindow : Option Int) (nDim : Nat) (buffer : Option Int)
    {calls calls' : List (Streaming.Op K)} (hg : Mimics m (seriesWindow - m + 1) Ready T R ops.gen ops'.gen)
    (hgens : List.Forall₂ (fun x y => y.2 = x.2 ∧ Alike (R 0 (startQuery queryWindow) x.2) (x.1 m seriesWindow queryWindow) (y.1 m seriesWindow queryWindow)) gens gens')
    (hcalls : List.Forall₂ (CallsPair T) calls calls') (hr : ReadyCalls Ready 0 (startQuery queryWindow) calls) :
    streamAll ops' gens' consumers needed m seriesWindow queryWindow nDim buffer calls' = streamAll ops gens consumers needed m seriesWindow queryWindow nDim buffer calls := by
  refine (Alike.eq ?_).symm
  unfold streamAll
  exact (streamingInit_pair m seriesWindow queryWindow nDim buffer).bind fun a b h => (streamingGenerators_pair seriesWindow queryWindow hgens h).bind fun a b h =>
    (streamingConsumers_pair hc consumers h.pair).bind fun a' b' h' => (streamingRun_pair hg hc needed hcalls h'.1 (by
      rw [h'.2.1, h'.2.2, h.series0, h.query0]; exact hr)).bind fun a b h => .ok h.base.cons.symm

/-- Nothing is required. -/
theorem readyCalls_true : ∀ (calls : List (Streaming.Op K)) (ns nq : Int), ReadyCalls (fun _ _ => True) ns nq calls
  | [], _, _ => trivial
  | .series _ :: l, _, _ => readyCalls_true l _ _
  | .query _ :: l, _, _ => readyCalls_true l _ _
  | .columns _ _ :: l, _, _ => ⟨trivial, readyCalls_true l _ _⟩

/-! ### Euclidean generators -/

theorem SameConsumers.refl (ops : Ops G C K) : SameConsumers ops ops := ⟨rfl, rfl, rfl, rfl, rfl⟩

/-- Rows of `n` points, every point `x` of row `ch` replaced by `a * x + b`. -/
def MovedRows [Field K] (a b : Nat → K) (n : Nat) : List (List (Fl K)) → List (List (Fl K)) → Prop :=
  RowsPair (fun ch => List.Forall₂ fun x y => ∃ u, x = .fin u ∧ y = .fin (a ch * u + b ch)) n

theorem MovedRows.npCols [Field K] {a b : Nat → K} {n : Nat} {x y : List (List (Fl K))} (h : MovedRows a b n x y) : Anytime.npCols y = Anytime.npCols x := by
  unfold Anytime.npCols
  rw [List.head?_eq_getElem?, List.head?_eq_getElem?]
  have hr := h.rows
  cases hx : x[0]? with
  | none =>
    rw [List.getElem?_eq_none_iff, ← hr, ← List.getElem?_eq_none_iff] at hx
    rw [hx]
  | some r =>
    have : 0 < y.length := by rw [hr]; exact (List.getElem?_eq_some_iff.mp hx).1
    rw [List.getElem?_eq_getElem this, Option.getD_some, Option.getD_some, (h.row 0 _ _ hx (List.getElem?_eq_getElem this)).length_eq]

/-- **C107, batch, Euclidean generators only.** Every point `x` of channel `ch` replaced by `a * x + b` with `a = ±1`, in series and query: same results for any finite
data, any consumers and any calls, also such that raise exceptions. -/
theorem C107_batch_euclidean [Field K] [LinearOrder K] (mem : Nat → List (Fl K)) (hmem : ∀ n, (mem n).length = n) (sq : K → K) (a b : Nat → K) (ha : ∀ ch, a ch = 1 ∨ a ch = -1)
    (ops : Ops (ColCache K) C K) (hops : ops.gen = Eucl.genOps mem sq) (shuffle : List Int → List Int) (hsh : ∀ l, ∀ d ∈ shuffle l, d ∈ l) (channels : List Nat)
    (consumers : List (C × List Nat)) (needed : List Nat) (m : Int) {n n' : Nat} {series series' : List (List (Fl K))} {query query' : Option (List (List (Fl K)))} (buffer : Option Int)
    (calls : List Anytime.Op) (hs : MovedRows a b n series series') (hq : Option.Rel (MovedRows a b n') query query') :
    batchAll ops shuffle (channels.map fun ch => (Eucl.prepare mem, ch)) consumers needed m series' query' buffer calls =
      batchAll ops shuffle (channels.map fun ch => (Eucl.prepare mem, ch)) consumers needed m series query buffer calls := by
  have ha : ∀ ch, a ch ^ 2 = 1 := fun ch => by rcases ha ch with h | h <;> rw [h] <;> ring
  have hqr : ∃ k, MovedRows a b k (query.getD series) (query'.getD series') := by
    cases hq with
    | none => exact ⟨_, hs⟩
    | some h => exact ⟨_, h⟩
  obtain ⟨k, hqr⟩ := hqr
  refine C109_batch (.refl ops) shuffle hsh consumers needed m buffer calls ⟨hs.rows, hs.npCols⟩ ⟨hqr.rows.symm, hqr.npCols⟩ (by cases hq <;> rfl)
    (by rw [hops]; exact Eucl.answers mem sq a b ha _ _) ?_
  rw [List.forall₂_map_left_iff, List.forall₂_map_right_iff, List.forall₂_same]
  refine fun ch _ => ⟨rfl, fun s s' q q' h1 h2 h3 h4 => Eucl.prepare_twin mem hmem _ _ m (hs.row _ _ _ h1 h2) ?_⟩
  split
  · exact .none
  · exact .some (hqr.row _ _ _ h3 h4)

/-- **C107, streaming, Euclidean generators only.** -/
theorem C107_stream_euclidean [Field K] [LinearOrder K] (mem : Nat → List (Fl K)) (hmem : ∀ n, (mem n).length = n) (sq : K → K) (a b : Nat → K) (ha : ∀ ch, a ch = 1 ∨ a ch = -1)
    (ops : Ops (ColCache K) C K) (hops : ops.gen = Eucl.genOps mem sq) (kinds : List (ℚ × Nat)) (hk : ∀ k ∈ kinds, 1 ≤ k.1) (consumers : List (C × List Nat)) (needed : List Nat)
    (m seriesWindow : Int) (queryWindow : Option Int) (nDim : Nat) (buffer : Option Int) {calls calls' : List (Streaming.Op K)}
    (hcalls : List.Forall₂ (CallsPair fun ch => List.Forall₂ fun x y => ∃ u, x = .fin u ∧ y = .fin (a ch * u + b ch)) calls calls') :
    streamAll ops (kinds.map fun k => (Eucl.streaming mem k.1, k.2)) consumers needed m seriesWindow queryWindow nDim buffer calls' =
      streamAll ops (kinds.map fun k => (Eucl.streaming mem k.1, k.2)) consumers needed m seriesWindow queryWindow nDim buffer calls := by
  have ha : ∀ ch, a ch ^ 2 = 1 := fun ch => by rcases ha ch with h | h <;> rw [h] <;> ring
  refine C109_stream (.refl ops) consumers needed m seriesWindow queryWindow nDim buffer (by rw [hops]; exact Eucl.mimics mem sq a b ha _ _) ?_ hcalls (readyCalls_true _ _ _)
  rw [List.forall₂_map_left_iff, List.forall₂_map_right_iff, List.forall₂_same]
  exact fun k hk' => ⟨rfl, Eucl.streaming_twin mem hmem (hk k hk') _ _ m seriesWindow queryWindow⟩

/-! ### Cases -/

/-- Two channels; the first one mirrored and shifted, the second one shifted. The two subsequences at 0 and 2 of channel 0 differ by less than what the code takes for 0
(their squared distance is `2e-20`). -/
theorem exMoved : MovedRows (fun ch => if ch = 0 then -1 else 1) (fun ch => if ch = 0 then 7 else 5) 4
    [[.fin (1 : ℚ), .fin 2, .fin (1 + 1 / 10 ^ 10), .fin (2 + 1 / 10 ^ 10)], [.fin 2, .fin 0, .fin 2, .fin 5]]
    [[.fin 6, .fin 5, .fin (6 - 1 / 10 ^ 10), .fin (5 - 1 / 10 ^ 10)], [.fin 7, .fin 5, .fin 7, .fin 10]] where
  rows := rfl
  cols := by simp
  row := by
    intro i x y hx hy
    match i with
    | 0 =>
      cases hx; cases hy
      refine .cons ⟨_, rfl, ?_⟩ (.cons ⟨_, rfl, ?_⟩ (.cons ⟨_, rfl, ?_⟩ (.cons ⟨_, rfl, ?_⟩ .nil))) <;> norm_num
    | 1 =>
      cases hx; cases hy
      refine .cons ⟨_, rfl, ?_⟩ (.cons ⟨_, rfl, ?_⟩ (.cons ⟨_, rfl, ?_⟩ (.cons ⟨_, rfl, ?_⟩ .nil))) <;> norm_num
    | _ + 2 => cases hx

example := fun sq calls => C107_batch_euclidean (K := ℚ) (fun n => List.replicate n .nan) (by simp) sq (fun ch => if ch = 0 then -1 else 1) (fun ch => if ch = 0 then 7 else 5)
  (fun ch => by split <;> simp) (MP.ops (Eucl.genOps (fun n => List.replicate n .nan) sq)) rfl List.reverse (fun _ _ h => List.mem_reverse.mp h) [0, 1, 0] [(MP.new, [0]), (MP.new, [1])] [0, 1] 2 none calls exMoved (n' := 0) .none

/-- All points in one call, then all columns. -/
def exMovedCalls (rows : List (List (Fl ℚ))) : List (Streaming.Op ℚ) := [.series (.d2 rows 4), .columns (fun _ => false) (.float (.fin 1))]

example := fun sq => C107_stream_euclidean (K := ℚ) (fun n => List.replicate n .nan) (by simp) sq (fun ch => if ch = 0 then -1 else 1) (fun ch => if ch = 0 then 7 else 5)
  (fun ch => by split <;> simp) (MP.ops (Eucl.genOps (fun n => List.replicate n .nan) sq)) rfl [(2, 0), (3 / 2, 1)] (by simp; norm_num) [(MP.new, [0]), (MP.new, [1])] [0, 1]
  2 3 none 2 (some 0) (calls := exMovedCalls _) (calls' := exMovedCalls _) (.cons ⟨rfl, exMoved⟩ (.cons ⟨rfl, rfl⟩ .nil))

/-- A generator that keeps a table of all columns and adds a column `d n` for each new point. -/
def exTable (d : Nat → List (Fl K)) : GenOps (List (List (Fl K))) K :=
  { calcColumn := fun g c => (pyGet g c).map fun v => (g, v), calcDiagonal := fun _ _ => .error .runtimeError,
    appendSeries := fun g v => .ok (g ++ (List.range v.length).map fun i => d (g.length + i)), appendQuery := fun _ _ => .error .runtimeError }

/-- A generator that counts the points only and calculates columns when asked for. -/
def exCounter (d : Nat → List (Fl K)) : GenOps Nat K :=
  { calcColumn := fun n c => if (if c < 0 then n + c else c) < 0 ∨ n ≤ (if c < 0 then n + c else c) then .error .indexError else .ok (n, d (if c < 0 then n + c else c).toNat),
    calcDiagonal := fun _ _ => .error .runtimeError, appendSeries := fun n v => .ok (n + v.length), appendQuery := fun _ _ => .error .runtimeError }

theorem exTable_column (d : Nat → List (Fl K)) (n : Nat) (c : Int) :
    Alike (fun x y => x.1 = (List.range y.1).map d ∧ x.2 = y.2) ((exTable d).calcColumn ((List.range n).map d) c) ((exCounter d).calcColumn n c) := by
  show Alike _ ((pyGet ((List.range n).map d) c).map _) (if _ then _ else _)
  unfold pyGet
  simp only [List.length_map, List.length_range]
  generalize (if c < 0 then (n : Int) + c else c) = j
  by_cases h : j < 0
  · rw [if_pos h, if_pos (.inl h)]
    exact .err _
  · rw [if_neg h]
    by_cases h' : (n : Int) ≤ j
    · rw [if_pos (.inr h'), List.getElem?_eq_none (by simp; omega)]
      exact .err _
    · rw [if_neg (by omega), List.getElem?_map, List.getElem?_range (by omega)]
      exact .ok ⟨rfl, rfl⟩

theorem exTable_answers (d : Nat → List (Fl K)) (ht w : Int) : Answers ht w (fun _ g n => g = (List.range n).map d) (exTable d) (exCounter d) where
  column := by
    rintro ch g n rfl c - -
    exact exTable_column d n c
  diagonal := fun _ _ _ _ _ _ _ => .err _

theorem exTable_mimics (d : Nat → List (Fl K)) (m w : Int) :
    Mimics m w (fun _ _ => True) (fun _ v v' => v.length = v'.length) (fun _ _ _ g n => g = (List.range n).map d) (exTable d) (exCounter d) where
  column := by
    rintro _ _ ch g n - rfl c - - -
    exact exTable_column d n c
  series := by
    rintro _ _ ch g n rfl v w hv
    refine .ok ?_
    rw [List.range_add, List.map_append, List.map_map, hv]
    simp [Function.comp_def]
  query := fun _ _ _ _ _ _ _ _ _ _ => .err _

/-- Everything else of the interface, for consumers that write down what they receive. -/
def exWith (g : GenOps G K) : Ops G (List (Int × List (List (Fl K)))) K :=
  { calcColumn := g.calcColumn, calcDiagonal := g.calcDiagonal, appendSeries := g.appendSeries, appendQuery := g.appendQuery, initialise := fun c _ _ _ => .ok c,
    processColumn := fun c i v => .ok (c ++ [(i, v)]), processDiagonal := fun c i v => .ok (c ++ [(i, v)]), shiftSeries := fun c _ => .ok c, shiftQuery := fun c _ => .ok c }

example (d : Nat → List (Fl ℚ)) (calls : List (Streaming.Op ℚ)) (h : List.Forall₂ (CallsPair fun _ v v' => v.length = v'.length) calls calls) :=
  C109_stream (ops := exWith (exTable d)) (ops' := exWith (exCounter d)) ⟨rfl, rfl, rfl, rfl, rfl⟩ (gens := [(fun _ _ _ => .ok [], 0)]) (gens' := [(fun _ _ _ => .ok 0, 0)])
    [([], [0])] [0] 1 5 none 1 none (exTable_mimics d _ _) (.cons ⟨rfl, .ok rfl⟩ .nil) h (readyCalls_true _ _ _)

example (d : Nat → List (Fl ℚ)) (n : Nat) (rows : List (List (Fl ℚ))) (calls : List Anytime.Op) :=
  C109_batch (ops := exWith (exTable d)) (ops' := exWith (exCounter d)) ⟨rfl, rfl, rfl, rfl, rfl⟩ List.reverse (fun _ _ h => List.mem_reverse.mp h)
    (gens := [(fun _ _ _ => .ok ((List.range n).map d), 0)]) (gens' := [(fun _ _ _ => .ok n, 0)]) [([], [0])] [0] 1 (series := rows) (series' := rows) (query := none) (query' := none) none
    calls ⟨rfl, rfl⟩ ⟨rfl, rfl⟩ rfl (exTable_answers d _ _) (.cons ⟨rfl, fun _ _ _ _ _ _ _ _ => .ok rfl⟩ .nil)

end Verif
