import Verif.Lemmas.BatchAll
import Verif.Props.StreamFeed

/-!
# C66: what the consumers of a batch calculation receive

Any number of channels, of `Euclidean` and `ZNormEuclidean` generators and of consumers of any class.
-/

namespace Verif
open Spec
variable {α C : Type}

/-- Arguments that the constructors accept, generators on existing channels, consumers of existing generators; `needed` is the set of the
generators that some consumer asked for. -/
structure BatchArgs (m : Nat) (s : List α) (query : Option (List α)) (nDim : Nat) (buffer : Option Int) (kinds : List (GenKind × Nat))
    (idss : List (List Nat)) (needed : List Nat) : Prop where
  pos : 0 < m
  series : m ≤ s.length
  queryLen : ∀ q, query = some q → m ≤ q.length
  dims : 0 < nDim
  bufferLen : query = none → -1 ≤ buffer.getD (m / 2) ∧ buffer.getD (m / 2) < ((s.length + 1 - m : Nat) : Int)
  chan : ∀ k ∈ kinds, k.2 < nDim
  ids : ∀ ids ∈ idss, ∀ id ∈ ids, id < kinds.length
  nodup : needed.Nodup
  needed : ∀ id, id ∈ needed ↔ ∃ ids ∈ idss, id ∈ ids

/-- The trivial match buffer in force: only in a self-join. -/
def batchBuffer (m : Nat) (query : Option (List α)) (buffer : Option Int) : Int := if query.isNone then buffer.getD (m / 2) else -1

/-- The order in which the diagonals are calculated. -/
def batchOrder (shuffle : List Int → List Int) (m : Nat) (s : List α) (query : Option (List α)) (buffer : Option Int) : List Int :=
  shuffle (batchDiagonals query.isNone ((query.getD s).length + 1 - m) (s.length + 1 - m) (batchBuffer m query buffer))

theorem bufferOf_batch (m : Nat) (query : Option (List α)) (buffer : Option Int) :
    bufferOf m (query.map (·.length)) buffer = batchBuffer m query buffer := by
  cases query <;> rfl

theorem GenKind.prepare_ok (memE : Nat → List (Fl ℝ)) (hmemE : ∀ n, (memE n).length = n) (memZ : ZN.Mem) (hmemZ : memZ.Ok) (m : Nat) (hm0 : 0 < m)
    (s : List ℝ) (q : Option (List ℝ)) (hs : m ≤ s.length) (hq : ∀ q', q = some q' → m ≤ q'.length) (k : GenKind) :
    ∃ x, k.prepare memE memZ m (s.map .fin) (q.map (·.map .fin)) = .ok x ∧ k.Holds m s.length (q.map (·.length)) x ⟨s, q.getD s, none⟩ := by
  cases k with
  | euclidean scale =>
    have hne : q ≠ some [] := by intro h; have := hq [] h; simp at this; omega
    obtain ⟨g, h1, -⟩ := Eucl.prepare_ok memE hmemE m hm0 s q hs hne
    have hfr : Eucl.Fresh memE m g s.length (q.map (·.length)) ⟨s, q.getD s, none⟩ := .batch s q g hs hne h1
    refine ⟨.inl g, ?_, g, rfl, (hfr.data hmemE hm0).1, hfr.cache hmemE hm0⟩
    simp [GenKind.prepare, h1, Except.map]
  | znorm noise scale =>
    obtain ⟨z, h1, h2, h3⟩ := ZN.prepare_ok memZ hmemZ noise m hm0 s q hs hq
    refine ⟨.inr z, ?_, z, rfl, h2, h3⟩
    simp [GenKind.prepare, h1, Except.map]

/-- **C66.** An `AnytimeCalculator` with any channels, any `Euclidean` and `ZNormEuclidean` generators and any consumers, after any sequence
of (partial, possibly interrupted) `calculate_diagonals` and `calculate_columns` calls: if the consumers accept the calls of
`BSt.allEvents`, then no call raises and the consumers are in the state these calls leave them in. Partial: for Euclidean generators, if
columns are calculated, no two different subsequences may be at squared distance below `1e-15` (`C66_euclidean_nan`). -/
theorem C66_batch_feed_partial (memE : Nat → List (Fl ℝ)) (hmemE : ∀ n, (memE n).length = n) (memZ : ZN.Mem) (hmemZ : memZ.Ok)
    (ops : Ops (ColCache ℝ ⊕ ZN) C ℝ) (hops : ops.gen = GenKind.ops memE memZ) (shuffle : List Int → List Int) (hsh : ∀ l, (shuffle l).Perm l)
    (π : Nat → α → ℝ) (m : Nat) (s : List α) (query : Option (List α)) (nDim : Nat) (buffer : Option Int) (kinds : List (GenKind × Nat))
    (consumers cons1 cons2 : List (C × List Nat)) (needed : List Nat) (ha : BatchArgs m s query nDim buffer kinds (consumers.map (·.2)) needed)
    (hinit : List.Forall₂ (fun c c' => c'.2 = c.2 ∧
      ops.initialise c.1 c.2.length (((query.getD s).length + 1 - m : Nat) : Int) ((s.length + 1 - m : Nat) : Int) = .ok c'.1) consumers cons1)
    (us : List BOp) (os : List Anytime.Op)
    (hc : AreBatchCalls m (query.getD s).length s.length (batchOrder shuffle m s query buffer) BSt.init us os)
    (hgood : (∃ a c, a < c ∧ .columns a c ∈ us) → ∀ g ∈ kinds, g.1.Good m (s.map (π g.2)) ((query.getD s).map (π g.2)))
    (hf : AllFed ops (fun ids => BSt.allEvents m query.isNone (batchBuffer m query buffer) (batchOrder shuffle m s query buffer) (streamDist π m kinds)
      s (query.getD s) ids BSt.init us) cons1 cons2) :
    batchAll ops shuffle (kinds.map fun k => (k.1.prepare memE memZ, k.2)) consumers needed m (frameRows π nDim s) (query.map (frameRows π nDim)) buffer os =
      .ok cons2 := by
  have hm0 := ha.pos
  have hs := ha.series
  have hq := ha.queryLen
  have hql : m ≤ (query.getD s).length := by
    cases query with
    | none => exact hs
    | some q' => exact hq q' rfl
  set M : Option Nat := query.map (·.length) with hM
  set D : Nat → List ℝ → List ℝ → Fl ℝ := fun i => match kinds[i]? with
    | some k => k.1.dist m
    | none => fun _ _ => .nan with hD
  have hget : ∀ i < (kinds.map fun k => (k.1.prepare memE memZ, k.2)).length, ∃ k, kinds[i]? = some k := by
    intro i hi
    rw [List.length_map] at hi
    exact ⟨_, List.getElem?_eq_getElem hi⟩
  have hDk : ∀ i k, kinds[i]? = some k → D i = k.1.dist m := by
    intro i k h; simp [hD, h]
  have hdist : frameDist π ((kinds.map fun k => (k.1.prepare memE memZ, k.2)).map (·.2)) D = streamDist π m kinds := by
    funext id a b
    unfold frameDist streamDist
    cases h : kinds[id]? with
    | none => simp [hD, h]
    | some k => simp [hDk _ _ h, h]
  refine batchAll_ok shuffle hsh (D := D) (Ok := fun i st op => ∀ k, kinds[i]? = some k → k.1.CallOk m M st op)
    (Inv := fun i x st => ∀ k, kinds[i]? = some k → k.1.Holds m s.length M x st) (π := π) _ s query ?_ hm0 ha.dims hs hq ?_ ?_ needed buffer ha.bufferLen
    ?_ us ?_ consumers cons1 cons2 ?_ ?_ hinit (batchOrder shuffle m s query buffer) ?_ os hc ?_
  · intro i hi
    obtain ⟨k, h⟩ := hget i hi
    rw [hDk i k h, hops]
    have := GenKind.serves memE hmemE memZ hmemZ m s.length M k.1
    simpa [h] using this
  · intro g hg
    obtain ⟨k, h1, rfl⟩ := List.mem_map.mp hg
    exact ha.chan k h1
  · intro i g hg
    rw [List.getElem?_map] at hg
    obtain ⟨k, h1, rfl⟩ := Option.map_eq_some_iff.mp hg
    obtain ⟨x, h2, h3⟩ := GenKind.prepare_ok memE hmemE memZ hmemZ m hm0 (s.map (π k.2)) (query.map (·.map (π k.2))) (by simpa using hs)
      (by intro q' h; obtain ⟨q, e1, rfl⟩ := Option.map_eq_some_iff.mp h; simpa using hq q e1) k.1
    refine ⟨x, ?_, fun k' hk' => ?_⟩
    · rw [← h2, Option.map_map]; rfl
    · rw [h1] at hk'
      cases hk'
      rw [hM]
      simpa [Option.map_map, Function.comp_def, apply_ite, Option.getD_map] using h3
  · intro i g hg l d hv k hk
    rw [List.getElem?_map, hk] at hg
    cases hg
    cases hk1 : k.1 with
    | euclidean _ => exact ⟨hv, trivial, by simp⟩
    | znorm _ _ => exact ⟨hv, trivial⟩
  · intro hex i g hg l c hcm hsafe k hk
    rw [List.getElem?_map, hk] at hg
    cases hg
    exact k.1.columnOk m M _ _ l c (hgood hex k (List.mem_of_getElem? hk)) (by simpa using hcm) (by simpa using hql) hsafe
  · refine ⟨ha.nodup, fun id => ?_⟩
    rw [ha.needed]
    constructor
    · rintro ⟨ids, h1, h2⟩
      obtain ⟨c, h3, rfl⟩ := List.mem_map.mp h1
      exact ⟨c, h3, h2⟩
    · rintro ⟨c, h1, h2⟩
      exact ⟨c.2, List.mem_map_of_mem h1, h2⟩
  · intro c hc' id hid
    rw [List.length_map]
    exact ha.ids c.2 (List.mem_map_of_mem hc') id hid
  · rw [bufferOf_batch]; rfl
  · rw [hdist, bufferOf_batch]; exact hf

/-- **C66, z-normalised Euclidean distance.** No restriction on the data. -/
theorem C66_batch_feed_znorm (memE : Nat → List (Fl ℝ)) (hmemE : ∀ n, (memE n).length = n) (memZ : ZN.Mem) (hmemZ : memZ.Ok)
    (ops : Ops (ColCache ℝ ⊕ ZN) C ℝ) (hops : ops.gen = GenKind.ops memE memZ) (shuffle : List Int → List Int) (hsh : ∀ l, (shuffle l).Perm l)
    (π : Nat → α → ℝ) (m : Nat) (s : List α) (query : Option (List α)) (nDim : Nat) (buffer : Option Int) (kinds : List (GenKind × Nat))
    (hz : ∀ k ∈ kinds, ∃ noise scale, k.1 = .znorm noise scale)
    (consumers cons1 cons2 : List (C × List Nat)) (needed : List Nat) (ha : BatchArgs m s query nDim buffer kinds (consumers.map (·.2)) needed)
    (hinit : List.Forall₂ (fun c c' => c'.2 = c.2 ∧
      ops.initialise c.1 c.2.length (((query.getD s).length + 1 - m : Nat) : Int) ((s.length + 1 - m : Nat) : Int) = .ok c'.1) consumers cons1)
    (us : List BOp) (os : List Anytime.Op)
    (hc : AreBatchCalls m (query.getD s).length s.length (batchOrder shuffle m s query buffer) BSt.init us os)
    (hf : AllFed ops (fun ids => BSt.allEvents m query.isNone (batchBuffer m query buffer) (batchOrder shuffle m s query buffer) (streamDist π m kinds)
      s (query.getD s) ids BSt.init us) cons1 cons2) :
    batchAll ops shuffle (kinds.map fun k => (k.1.prepare memE memZ, k.2)) consumers needed m (frameRows π nDim s) (query.map (frameRows π nDim)) buffer os =
      .ok cons2 := by
  refine C66_batch_feed_partial memE hmemE memZ hmemZ ops hops shuffle hsh π m s query nDim buffer kinds consumers cons1 cons2 needed ha hinit us os hc ?_ hf
  intro _ g hg
  obtain ⟨noise, scale, e⟩ := hz g hg
  rw [e]; trivial

/-- **C66, diagonals only.** No restriction on the data or the generators. -/
theorem C66_batch_feed_diagonals (memE : Nat → List (Fl ℝ)) (hmemE : ∀ n, (memE n).length = n) (memZ : ZN.Mem) (hmemZ : memZ.Ok)
    (ops : Ops (ColCache ℝ ⊕ ZN) C ℝ) (hops : ops.gen = GenKind.ops memE memZ) (shuffle : List Int → List Int) (hsh : ∀ l, (shuffle l).Perm l)
    (π : Nat → α → ℝ) (m : Nat) (s : List α) (query : Option (List α)) (nDim : Nat) (buffer : Option Int) (kinds : List (GenKind × Nat))
    (consumers cons1 cons2 : List (C × List Nat)) (needed : List Nat) (ha : BatchArgs m s query nDim buffer kinds (consumers.map (·.2)) needed)
    (hinit : List.Forall₂ (fun c c' => c'.2 = c.2 ∧
      ops.initialise c.1 c.2.length (((query.getD s).length + 1 - m : Nat) : Int) ((s.length + 1 - m : Nat) : Int) = .ok c'.1) consumers cons1)
    (ns : List Nat) (os : List Anytime.Op)
    (hc : AreBatchCalls m (query.getD s).length s.length (batchOrder shuffle m s query buffer) BSt.init (ns.map .diagonals) os)
    (hf : AllFed ops (fun ids => BSt.allEvents m query.isNone (batchBuffer m query buffer) (batchOrder shuffle m s query buffer) (streamDist π m kinds)
      s (query.getD s) ids BSt.init (ns.map .diagonals)) cons1 cons2) :
    batchAll ops shuffle (kinds.map fun k => (k.1.prepare memE memZ, k.2)) consumers needed m (frameRows π nDim s) (query.map (frameRows π nDim)) buffer os =
      .ok cons2 := by
  refine C66_batch_feed_partial memE hmemE memZ hmemZ ops hops shuffle hsh π m s query nDim buffer kinds consumers cons1 cons2 needed ha hinit _ os hc ?_ hf
  rintro ⟨a, c, _, h⟩
  obtain ⟨n, -, h⟩ := List.mem_map.mp h
  cases h

/-- **C66, in terms of consumers that note their calls**: each of them has noted exactly the calls of `BSt.allEvents`. -/
theorem C66_recorded_partial (memE : Nat → List (Fl ℝ)) (hmemE : ∀ n, (memE n).length = n) (memZ : ZN.Mem) (hmemZ : memZ.Ok)
    (shuffle : List Int → List Int) (hsh : ∀ l, (shuffle l).Perm l)
    (π : Nat → α → ℝ) (m : Nat) (s : List α) (query : Option (List α)) (nDim : Nat) (buffer : Option Int) (kinds : List (GenKind × Nat))
    (idss : List (List Nat)) (needed : List Nat) (ha : BatchArgs m s query nDim buffer kinds idss needed) (us : List BOp) (os : List Anytime.Op)
    (hc : AreBatchCalls m (query.getD s).length s.length (batchOrder shuffle m s query buffer) BSt.init us os)
    (hgood : (∃ a c, a < c ∧ .columns a c ∈ us) → ∀ g ∈ kinds, g.1.Good m (s.map (π g.2)) ((query.getD s).map (π g.2))) :
    batchAll (recorder (GenKind.ops memE memZ)) shuffle (kinds.map fun k => (k.1.prepare memE memZ, k.2)) (idss.map fun ids => ([], ids)) needed m
        (frameRows π nDim s) (query.map (frameRows π nDim)) buffer os =
      .ok (idss.map fun ids => (BSt.allEvents m query.isNone (batchBuffer m query buffer) (batchOrder shuffle m s query buffer) (streamDist π m kinds)
        s (query.getD s) ids BSt.init us, ids)) := by
  refine C66_batch_feed_partial memE hmemE memZ hmemZ (recorder (GenKind.ops memE memZ)) rfl shuffle hsh π m s query nDim buffer kinds
    (idss.map fun ids => ([], ids)) (idss.map fun ids => ([], ids)) _ needed (by simpa [List.map_map, Function.comp_def] using ha) ?_ us os hc hgood ?_
  · rw [List.forall₂_map_left_iff, List.forall₂_map_right_iff, List.forall₂_same]
    exact fun _ _ => ⟨rfl, rfl⟩
  · unfold AllFed
    rw [List.forall₂_map_left_iff, List.forall₂_map_right_iff, List.forall₂_same]
    exact fun ids _ => ⟨rfl, by rw [recorder_feed, List.nil_append]⟩

/-- Calls whose arguments are integers or floats from 0 to 1. -/
def Anytime.Op.Proper : Anytime.Op → Prop
  | .diagonals _ p => PyNum.Proper p
  | .columns _ start upto => (∀ p, start = some p → PyNum.Proper p) ∧ PyNum.Proper upto
where
  /-- An integer or a float from 0 to 1. -/
  PyNum.Proper (p : PyNum) : Prop := (∃ v, p = .int v) ∨ ∃ x : ℚ, p = .float (.fin x) ∧ 0 ≤ x ∧ x ≤ 1

/-- **C66, the calls.** Every sequence of calls with proper arguments, interrupted at any moments, makes one of the sequences of calculations
of the other theorems. -/
theorem C66_calls (m nq ns : Nat) (order : List Int) (os : List Anytime.Op) (ho : ∀ o ∈ os, o.Proper) :
    ∃ us, AreBatchCalls m nq ns order BSt.init us os := by
  have amount : ∀ (full : Nat) (p : PyNum), Anytime.Op.Proper.PyNum.Proper p → ∃ v, Amount full p v := by
    rintro full p (⟨v, rfl⟩ | ⟨x, rfl, h1, h2⟩)
    · exact ⟨v, .inl rfl⟩
    · exact ⟨_, .inr ⟨x, rfl, h1, h2, rfl⟩⟩
  suffices h : ∀ u : BSt, u.next ≤ order.length → ∃ us, AreBatchCalls m nq ns order u us os from h _ (Nat.zero_le _)
  induction os with
  | nil => exact fun u _ => ⟨[], trivial⟩
  | cons o os ih =>
    intro u hu
    have hp := ho o (by simp)
    obtain ⟨x, hx, hx'⟩ : ∃ x, IsBatchCall m nq ns order u x o ∧ (u.step x).next ≤ order.length := by
      cases o with
      | diagonals ints p =>
        obtain ⟨v, hv⟩ := amount (valuesUpto m nq ns order order.length) p hp
        obtain ⟨n, hn⟩ := IsBatchCall.exists_diagonals m nq ns order u hu ints p v hv
        refine ⟨.diagonals n, hn, ?_⟩
        obtain ⟨-, -, -, h, -⟩ := hn
        exact max_le hu h
      | columns ints start upto =>
        obtain ⟨b0, hb0⟩ := amount (ns + 1 - m) upto hp.2
        cases start with
        | none =>
          obtain ⟨a, c, h⟩ := IsBatchCall.exists_columns m nq ns order u ints none upto u.col b0 (.inl ⟨rfl, rfl⟩) hb0
          exact ⟨.columns a c, h, hu⟩
        | some p =>
          obtain ⟨a0, ha0⟩ := amount (ns + 1 - m) p (hp.1 p rfl)
          obtain ⟨a, c, h⟩ := IsBatchCall.exists_columns m nq ns order u ints (some p) upto a0 b0 (.inr ⟨p, rfl, ha0⟩) hb0
          exact ⟨.columns a c, h, hu⟩
    obtain ⟨us, hus⟩ := ih (fun o h => ho o (by simp [h])) (u.step x) hx'
    exact ⟨x :: us, hx, hus⟩

/-- C66 does not hold for every input of a Euclidean generator: the squared distance of the subsequences at position 0 is `4e-16`, and the
consumer receives NaN for the pair (1, 1), which is at distance 0. -/
theorem C66_euclidean_nan :
    (batchAll (recorder (Eucl.genOps zeroMem (fun x : ℚ => x))) id [(Eucl.prepare zeroMem, 0)] [([], [0])] [0] 1
      [[.fin (1 / 50000000), .fin 5]] (some [[.fin 0, .fin 5]]) none [.columns (fun _ => false) none (.float (.fin 1))]).map
        (fun l => l.map fun x => (x.1.filterMap fun e => match e with | .column _ v => some v | _ => none).drop 1) =
      .ok [[[[.fin 25, .nan]]]] := by
  decide +kernel

/-! ### A concrete case: two channels, three generators, two consumers, partial and interrupted calls. -/

example : BatchArgs 2 [((1, 2) : ℤ × ℤ), (5, 0), (2, 7), (8, 1), (3, 3)] none 2 (some 0) exKinds [[0, 2], [1]] [2, 0, 1] := by
  refine ⟨by decide, by decide, by simp, by decide, by simp, ?_, ?_, by decide, ?_⟩
  · simp [exKinds]
  · simp [exKinds]
  · intro id; simp; omega

/-- Four subsequences: the diagonals 1, 2, 3 hold 3, 2 and 1 pairs. Calculated in the order 3, 2, 1: a tenth of the pairs is one pair, so
diagonal 3; the second call is interrupted before diagonal 1; then column 1 and, going on from there, all others. -/
example : batchOrder List.reverse 2 [((1, 2) : ℤ × ℤ), (5, 0), (2, 7), (8, 1), (3, 3)] none (some 0) = [3, 2, 1] ∧
    AreBatchCalls 2 5 5 [3, 2, 1] BSt.init [.diagonals 1, .diagonals 2, .columns 1 2, .columns 2 4]
      [.diagonals (fun _ => false) (.float (.fin (1 / 10))), .diagonals (fun n => n == 2) (.float (.fin 1)),
       .columns (fun _ => false) (some (.int 1)) (.float (.fin (1 / 2))), .columns (fun _ => false) none (.int 7)] := by
  refine ⟨rfl, ⟨1, .inr ⟨1 / 10, rfl, by norm_num, by norm_num, ?_⟩, by decide, by decide, ?_, .inr (.inl ?_)⟩,
    ⟨6, .inr ⟨1, rfl, by norm_num, by norm_num, ?_⟩, by decide, by decide, ?_, .inr (.inr rfl)⟩,
    ⟨1, 2, .inr ⟨_, rfl, .inl rfl⟩, by decide, .inr ⟨1 / 2, rfl, by norm_num, by norm_num, by norm_num⟩, by simp, .inl (by decide)⟩,
    ⟨2, 7, .inl ⟨rfl, rfl⟩, by decide, .inl rfl, by simp, .inl (by decide)⟩, trivial⟩
  · have : valuesUpto 2 5 5 [3, 2, 1] 3 = 6 := rfl
    simp only [List.length_cons, List.length_nil, this]
    norm_num
  · intro k _ hk
    have : k = 0 := by omega
    subst this
    exact ⟨by decide, rfl⟩
  · decide
  · have : valuesUpto 2 5 5 [3, 2, 1] 3 = 6 := rfl
    simp only [List.length_cons, List.length_nil, this]
    norm_num
  · intro k h1 h2
    have h1' : 1 ≤ k := h1
    have : k = 1 := by omega
    subst this
    exact ⟨by decide, rfl⟩

/-- What the first consumer receives then. -/
example (D : Nat → List (ℤ × ℤ) → List (ℤ × ℤ) → Fl ℚ) :
    (BSt.allEvents 2 true 0 [3, 2, 1] D [((1, 2) : ℤ × ℤ), (5, 0), (2, 7), (8, 1), (3, 3)] [((1, 2) : ℤ × ℤ), (5, 0), (2, 7), (8, 1), (3, 3)] [0, 2]
        BSt.init [.diagonals 1, .diagonals 2, .columns 1 2, .columns 2 4]).map (fun e => match e with
      | .column c v => (c, v.map List.length) | .diagonal d v => (d, [77] ++ v.map List.length) | .shiftSeries n => (n, [1000]) | .shiftQuery n => (n, [2000])) =
    [(3, [77, 1, 1]), (-3, [77, 1, 1]), (2, [77, 2, 2]), (-2, [77, 2, 2]), (1, [4, 4]), (2, [4, 4]), (3, [4, 4])] := by
  rfl

end Verif
