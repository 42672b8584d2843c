import Verif.Lemmas.Assembly

/-!
# C62: what the consumers of a streaming calculation receive

Any number of channels, of `Euclidean` and `ZNormEuclidean` generators and of consumers of any class.
-/

namespace Verif
open Spec
variable {α C : Type}

/-- The distance a generator stands for, of two subsequences of `m` points. -/
noncomputable def GenKind.dist (m : Nat) : GenKind → List ℝ → List ℝ → Fl ℝ
  | .euclidean _, a, b => .fin (Real.sqrt (sqd m (seqOf a) (seqOf b) 0 0))
  | .znorm noise _, a, b => .fin (zdist m noise (seqOf a) (seqOf b) 0 0)

/-- The distances of all generators as functions of frames; `π ch x` is channel `ch` of frame `x`. -/
noncomputable def streamDist (π : Nat → α → ℝ) (m : Nat) (kinds : List (GenKind × Nat)) (id : Nat) (a b : List α) : Fl ℝ :=
  match kinds[id]? with
  | some (k, ch) => k.dist m (a.map (π ch)) (b.map (π ch))
  | none => .nan

/-- Ring buffer scale factors for which appending works. -/
def GenKind.ScaleOk : GenKind → Prop
  | .euclidean scale => 1 ≤ scale ∧ scale ≤ 2
  | .znorm _ scale => 1 ≤ scale ∧ scale ≤ 2

/-- Data for which a generator's columns are right: for the Euclidean distance no two different subsequences may be at squared distance
below `1e-15`. -/
def GenKind.Good (m : Nat) : GenKind → List ℝ → List ℝ → Prop
  | .euclidean _, s, q => Eucl.NoTiny m s q
  | .znorm _ _, _, _ => True

/-- Arguments that the constructors accept, generators on existing channels, consumers of existing generators; `needed` is the set of the
generators that some consumer asked for. -/
structure StreamArgs (m N : Nat) (M : Option Nat) (nDim : Nat) (buffer : Option Int) (kinds : List (GenKind × Nat)) (idss : List (List Nat))
    (needed : List Nat) : Prop where
  pos : 0 < m
  series : m ≤ N
  query : ∀ M', M = some M' → m ≤ M'
  buffer : M = none → -1 ≤ buffer.getD (m / 2) ∧ buffer.getD (m / 2) < ((N + 1 - m : Nat) : Int)
  scale : ∀ k ∈ kinds, k.1.ScaleOk
  chan : ∀ k ∈ kinds, k.2 < nDim
  ids : ∀ ids ∈ idss, ∀ id ∈ ids, id < kinds.length
  nodup : needed.Nodup
  needed : ∀ id, id ∈ needed ↔ ∃ ids ∈ idss, id ∈ ids

/-- Calls for which a generator is right. -/
def GenKind.CallOk (m : Nat) (M : Option Nat) : GenKind → GSt ℝ → GOp ℝ → Prop
  | .euclidean _, st, op => st.Valid m M op ∧ st.Safe op ∧ ∀ c, op = .column c → Eucl.NoTiny m st.s st.q
  | .znorm _ _, st, op => st.Valid m M op ∧ st.Safe op

/-- The state of a generator fits the calls made so far. -/
def GenKind.Holds (m N : Nat) (M : Option Nat) : GenKind → ColCache ℝ ⊕ ZN → GSt ℝ → Prop
  | .euclidean _, g, st => ∃ x : ColCache ℝ, g = .inl x ∧ x.Data m N M st.s st.q ∧
      x.Cache (fun a b => (a - b) ^ 2) Eucl.clamp Eq m N st.s st.q st.last
  | .znorm noise _, g, st => ∃ x : ZN, g = .inr x ∧ x.Base m noise N M st.s st.q ∧ x.CacheOk m N st

theorem GenKind.serves (memE : Nat → List (Fl ℝ)) (hmemE : ∀ n, (memE n).length = n) (memZ : ZN.Mem) (hmemZ : memZ.Ok) (m N : Nat) (M : Option Nat)
    (k : GenKind) : Serves (GenKind.ops memE memZ) m N M (k.dist m) (k.CallOk m M) (k.Holds m N M) := by
  cases k with
  | euclidean scale => exact (Eucl.serves memE hmemE Real.sqrt m N M).inl
  | znorm noise scale => exact (ZN.serves memZ hmemZ noise m N M).inr

theorem GenKind.streaming_ok (memE : Nat → List (Fl ℝ)) (hmemE : ∀ n, (memE n).length = n) (memZ : ZN.Mem) (hmemZ : memZ.Ok) (m N : Nat)
    (M : Option Nat) (hm0 : 0 < m) (hN : m ≤ N) (hM : ∀ M', M = some M' → m ≤ M') (k : GenKind) (hsc : k.ScaleOk) :
    ∃ x, k.streaming memE memZ m N (M.map fun M : Nat => (M : Int)) = .ok x ∧ k.Holds m N M x ⟨[], [], none⟩ := by
  cases k with
  | euclidean scale =>
    have hfr : Eucl.Fresh memE m (Eucl.prepareStreaming memE scale m N M) N M ⟨[], [], none⟩ := Eucl.Fresh.streaming scale N M hsc.1 hsc.2 hN
      (by intro h; have := hM 0 h; omega)
    refine ⟨.inl (Eucl.prepareStreaming memE scale m N M), ?_, _, rfl, (hfr.data hmemE hm0).1, hfr.cache hmemE hm0⟩
    simp [GenKind.streaming, Eucl.streaming, Option.map_map, Function.comp_def, Except.map]
  | znorm noise scale =>
    obtain ⟨z, z1, z2, z3, z4⟩ := ZN.prepareStreaming_ok memZ hmemZ noise scale hsc.1 hsc.2 m hm0 N M hN hM
    obtain ⟨b1, b2⟩ := (ZN.Fresh.streaming scale N M z hsc.1 hsc.2 hN hM z1).base hmemZ hm0
    refine ⟨.inr z, ?_, _, rfl, b1, b2⟩
    have e : ZN.streaming memZ noise scale m N (M.map fun M : Nat => (M : Int)) = .ok z := by
      unfold ZN.streaming
      simpa [Option.map_map, Function.comp_def] using z1
    simp [GenKind.streaming, e, Except.map]

theorem GenKind.columnOk (m : Nat) (M : Option Nat) (k : GenKind) (s q : List ℝ) (l : Option (Int × Bool)) (c : Nat) (h0 : k.Good m s q)
    (h1 : c + m ≤ s.length) (h2 : m ≤ q.length) (h3 : (GSt.mk s q l).Safe (.column c)) : k.CallOk m M ⟨s, q, l⟩ (.column c) := by
  cases k with
  | euclidean scale => exact ⟨⟨h1, h2⟩, h3, fun _ _ => h0⟩
  | znorm noise scale => exact ⟨⟨h1, h2⟩, h3⟩

/-- **C62.** A `StreamingCalculator` with any channels, any `Euclidean` and `ZNormEuclidean` generators and any consumers, after any
sequence of `append_series`, `append_query` and (possibly interrupted) `calculate_columns` calls: if the consumers accept the calls of
`MSt.allEvents`, then no call raises and the consumers are in the state these calls leave them in. Partial: for Euclidean generators
whenever columns are calculated no two different subsequences in the windows may be at squared distance below `1e-15`
(`C62_euclidean_nan`). -/
theorem C62_stream_feed_partial (memE : Nat → List (Fl ℝ)) (hmemE : ∀ n, (memE n).length = n) (memZ : ZN.Mem) (hmemZ : memZ.Ok)
    (ops : Ops (ColCache ℝ ⊕ ZN) C ℝ) (hops : ops.gen = GenKind.ops memE memZ) (π : Nat → α → ℝ)
    (m N : Nat) (M : Option Nat) (nDim : Nat) (buffer : Option Int) (kinds : List (GenKind × Nat)) (consumers cons1 cons2 : List (C × List Nat))
    (needed : List Nat) (ha : StreamArgs m N M nDim buffer kinds (consumers.map (·.2)) needed)
    (hinit : List.Forall₂ (fun c c' => c'.2 = c.2 ∧ ops.initialise c.1 c.2.length ((M.getD N + 1 - m : Nat) : Int) ((N + 1 - m : Nat) : Int) = .ok c'.1)
      consumers cons1)
    (us : List (MOp α)) (os : List (Streaming.Op ℝ)) (hc : AreCalls nDim π m N M MSt.init us os)
    (hall : MSt.init.All m N M (fun u op => u.Valid m M op ∧ ∀ k, op = .columns k → ∀ g ∈ kinds,
        g.1.Good m (lastN N (u.s.map (π g.2))) (lastN (M.getD N) (u.q.map (π g.2)))) us)
    (hf : AllFed ops (fun ids => MSt.allEvents m N M (bufferOf m M buffer) (streamDist π m kinds) ids MSt.init us) cons1 cons2) :
    streamAll ops (kinds.map fun k => (k.1.streaming memE memZ, k.2)) consumers needed m N (M.map fun M : Nat => (M : Int)) nDim buffer os =
      .ok cons2 := by
  have hm0 := ha.pos
  have hN := ha.series
  have hM := ha.query
  have key : ∀ (i : Nat) k, kinds[i]? = some k → ∃ x, k.1.streaming memE memZ m N (M.map fun M : Nat => (M : Int)) = .ok x ∧
      k.1.Holds m N M x ⟨[], [], none⟩ := fun i k h =>
    GenKind.streaming_ok memE hmemE memZ hmemZ m N M hm0 hN hM k.1 (ha.scale k (List.mem_of_getElem? h))
  set D : Nat → List ℝ → List ℝ → Fl ℝ := fun i => match kinds[i]? with
    | some k => k.1.dist m
    | none => fun _ _ => .nan with hD
  have hget : ∀ i < (kinds.map fun k => (k.1.streaming memE memZ, k.2)).length, ∃ k, kinds[i]? = some k := by
    intro i hi
    rw [List.length_map] at hi
    exact ⟨_, List.getElem?_eq_getElem hi⟩
  have hDk : ∀ i k, kinds[i]? = some k → D i = k.1.dist m := by
    intro i k h; simp [hD, h]
  have hdist : frameDist π ((kinds.map fun k => (k.1.streaming memE memZ, k.2)).map (·.2)) D = streamDist π m kinds := by
    funext id a b
    unfold frameDist streamDist
    cases h : kinds[id]? with
    | none => simp [hD, h]
    | some k => simp [hDk _ _ h, h]
  have hser : ∀ (k : GenKind) w x, k.CallOk m M w (.series x) := by
    intro k w x
    cases k with
    | euclidean _ => exact ⟨trivial, trivial, by simp⟩
    | znorm _ _ => exact ⟨trivial, trivial⟩
  have hqu : M ≠ none → ∀ (k : GenKind) w x, k.CallOk m M w (.query x) := by
    intro h k w x
    cases k with
    | euclidean _ => exact ⟨h, trivial, by simp⟩
    | znorm _ _ => exact ⟨h, trivial⟩
  refine streamAll_ok (D := D) (Ok := fun i st op => ∀ k, kinds[i]? = some k → k.1.CallOk m M st op)
    (Inv := fun i x st => ∀ k, kinds[i]? = some k → k.1.Holds m N M x st) (π := π) _ ?_ hm0 hN hM ?_ ?_ needed
    (fun i s q => ∀ k, kinds[i]? = some k → k.1.Good m s q) (fun i _ w x k _ => hser k.1 w x) (fun h i _ w x k _ => hqu h k.1 w x)
    (fun i _ s q l c h0 h1 h2 h3 k hk => k.1.columnOk m M s q l c (h0 k hk) h1 h2 h3) buffer ha.buffer consumers cons1 cons2 ?_ ?_ hinit us os hc ?_ ?_
  · intro i hi
    obtain ⟨k, h⟩ := hget i hi
    rw [hDk i k h, hops]
    have := GenKind.serves memE hmemE memZ hmemZ m N M k.1
    simpa [h] using this
  · intro g hg
    obtain ⟨k, h1, rfl⟩ := List.mem_map.mp hg
    exact ha.chan k h1
  · intro i g hg
    rw [List.getElem?_map] at hg
    obtain ⟨k, h1, rfl⟩ := Option.map_eq_some_iff.mp hg
    obtain ⟨x, h2, h3⟩ := key i k h1
    exact ⟨x, h2, fun k' hk' => by rw [h1] at hk'; cases hk'; exact h3⟩
  · refine ⟨ha.nodup, fun id => ?_⟩
    rw [ha.needed]
    constructor
    · rintro ⟨ids, h1, h2⟩
      obtain ⟨c, h3, rfl⟩ := List.mem_map.mp h1
      exact ⟨c, h3, h2⟩
    · rintro ⟨c, h1, h2⟩
      exact ⟨c.2, List.mem_map_of_mem h1, h2⟩
  · intro c hc' id hid
    rw [List.length_map]
    exact ha.ids c.2 (List.mem_map_of_mem hc') id hid
  · clear hc hf
    revert hall
    generalize (MSt.init : MSt α) = u
    induction us generalizing u with
    | nil => intro _; trivial
    | cons x us ih =>
      intro h
      refine ⟨⟨h.1.1, fun k hk' i g hg k' hk'' => ?_⟩, ih _ h.2⟩
      rw [List.getElem?_map, hk''] at hg
      cases hg
      exact h.1.2 k hk' k' (List.mem_of_getElem? hk'')
  · rw [hdist]; exact hf

theorem allGood_znorm (π : Nat → α → ℝ) (m N : Nat) (M : Option Nat) (kinds : List (GenKind × Nat))
    (hz : ∀ k ∈ kinds, ∃ noise scale, k.1 = .znorm noise scale) (us : List (MOp α)) (u : MSt α) (hall : u.All m N M (fun u op => u.Valid m M op) us) :
    u.All m N M (fun u op => u.Valid m M op ∧ ∀ k, op = .columns k → ∀ g ∈ kinds,
        g.1.Good m (lastN N (u.s.map (π g.2))) (lastN (M.getD N) (u.q.map (π g.2)))) us := by
  induction us generalizing u with
  | nil => trivial
  | cons x us ih =>
    refine ⟨⟨hall.1, fun _ _ g hg => ?_⟩, ih _ hall.2⟩
    obtain ⟨noise, scale, e⟩ := hz g hg
    rw [e]; trivial

/-- **C62, z-normalised Euclidean distance.** No restriction on the data. -/
theorem C62_stream_feed_znorm (memE : Nat → List (Fl ℝ)) (hmemE : ∀ n, (memE n).length = n) (memZ : ZN.Mem) (hmemZ : memZ.Ok)
    (ops : Ops (ColCache ℝ ⊕ ZN) C ℝ) (hops : ops.gen = GenKind.ops memE memZ) (π : Nat → α → ℝ)
    (m N : Nat) (M : Option Nat) (nDim : Nat) (buffer : Option Int) (kinds : List (GenKind × Nat)) (hz : ∀ k ∈ kinds, ∃ noise scale, k.1 = .znorm noise scale)
    (consumers cons1 cons2 : List (C × List Nat))
    (needed : List Nat) (ha : StreamArgs m N M nDim buffer kinds (consumers.map (·.2)) needed)
    (hinit : List.Forall₂ (fun c c' => c'.2 = c.2 ∧ ops.initialise c.1 c.2.length ((M.getD N + 1 - m : Nat) : Int) ((N + 1 - m : Nat) : Int) = .ok c'.1)
      consumers cons1)
    (us : List (MOp α)) (os : List (Streaming.Op ℝ)) (hc : AreCalls nDim π m N M MSt.init us os)
    (hall : MSt.init.All m N M (fun u op => u.Valid m M op) us)
    (hf : AllFed ops (fun ids => MSt.allEvents m N M (bufferOf m M buffer) (streamDist π m kinds) ids MSt.init us) cons1 cons2) :
    streamAll ops (kinds.map fun k => (k.1.streaming memE memZ, k.2)) consumers needed m N (M.map fun M : Nat => (M : Int)) nDim buffer os =
      .ok cons2 := by
  refine C62_stream_feed_partial memE hmemE memZ hmemZ ops hops π m N M nDim buffer kinds consumers cons1 cons2 needed ha hinit us os hc
    (allGood_znorm π m N M kinds hz us _ hall) hf

/-- A consumer that notes the calls it receives, next to generators. -/
def recorder {G K : Type} (gops : GenOps G K) : Ops G (List (CEvent K)) K :=
  { calcColumn := gops.calcColumn, calcDiagonal := gops.calcDiagonal, appendSeries := gops.appendSeries, appendQuery := gops.appendQuery,
    initialise := fun _ _ _ _ => .ok [], processColumn := fun l c v => .ok (l ++ [.column c v]),
    processDiagonal := fun l d v => .ok (l ++ [.diagonal d v]), shiftSeries := fun l n => .ok (l ++ [.shiftSeries n]),
    shiftQuery := fun l n => .ok (l ++ [.shiftQuery n]) }

theorem recorder_feed {G K : Type} (gops : GenOps G K) (es l : List (CEvent K)) : feed (recorder gops) l es = .ok (l ++ es) := by
  induction es generalizing l with
  | nil => simp [feed]
  | cons e es ih =>
    have : e.apply (recorder gops) l = .ok (l ++ [e]) := by cases e <;> rfl
    simp only [feed, this, bind, Except.bind, ih, List.append_assoc, List.singleton_append]

/-- **C62, in terms of consumers that note their calls**: each of them has noted exactly the calls of `MSt.allEvents`. -/
theorem C62_recorded_partial (memE : Nat → List (Fl ℝ)) (hmemE : ∀ n, (memE n).length = n) (memZ : ZN.Mem) (hmemZ : memZ.Ok)
    (π : Nat → α → ℝ) (m N : Nat) (M : Option Nat) (nDim : Nat) (buffer : Option Int) (kinds : List (GenKind × Nat)) (idss : List (List Nat))
    (needed : List Nat) (ha : StreamArgs m N M nDim buffer kinds idss needed)
    (us : List (MOp α)) (os : List (Streaming.Op ℝ)) (hc : AreCalls nDim π m N M MSt.init us os)
    (hall : MSt.init.All m N M (fun u op => u.Valid m M op ∧ ∀ k, op = .columns k → ∀ g ∈ kinds,
        g.1.Good m (lastN N (u.s.map (π g.2))) (lastN (M.getD N) (u.q.map (π g.2)))) us) :
    streamAll (recorder (GenKind.ops memE memZ)) (kinds.map fun k => (k.1.streaming memE memZ, k.2)) (idss.map fun ids => ([], ids)) needed m N
        (M.map fun M : Nat => (M : Int)) nDim buffer os =
      .ok (idss.map fun ids => (MSt.allEvents m N M (bufferOf m M buffer) (streamDist π m kinds) ids MSt.init us, ids)) := by
  refine C62_stream_feed_partial memE hmemE memZ hmemZ (recorder (GenKind.ops memE memZ)) rfl π m N M nDim buffer kinds
    (idss.map fun ids => ([], ids)) (idss.map fun ids => ([], ids)) _ needed (by simpa [List.map_map, Function.comp_def] using ha) ?_ us os hc hall ?_
  · rw [List.forall₂_map_left_iff, List.forall₂_map_right_iff, List.forall₂_same]
    exact fun _ _ => ⟨rfl, rfl⟩
  · unfold AllFed
    rw [List.forall₂_map_left_iff, List.forall₂_map_right_iff, List.forall₂_same]
    exact fun ids _ => ⟨rfl, by rw [recorder_feed, List.nil_append]⟩

/-- C62 does not hold for every input of a Euclidean generator: the squared distance of the subsequences at position 0 is `4e-16`, and the
consumer receives NaN for the pair (1, 1), which is at distance 0. -/
theorem C62_euclidean_nan :
    (streamAll (recorder (Eucl.genOps zeroMem (fun x : ℚ => x))) [(Eucl.streaming zeroMem 2, 0)] [([], [0])] [0] 1 2 (some 2) 1 none
      [.series (.d2 [[.fin (1 / 50000000), .fin 5]] 2), .query (.d2 [[.fin 0, .fin 5]] 2), .columns (fun _ => false) (.int 2)]).map
        (fun l => l.map fun x => (x.1.filterMap fun e => match e with | .column _ v => some v | _ => none).drop 1) =
      .ok [[[[.fin 25, .nan]]]] := by
  decide +kernel

/-! ### A concrete case: two channels, three generators, two consumers, windows that overflow, an interrupted call. -/

/-- The channels of a frame. -/
def exChan (ch : Nat) (x : ℤ × ℤ) : ℝ := if ch = 0 then x.1 else x.2

noncomputable def exKinds : List (GenKind × Nat) := [(.euclidean 2, 1), (.znorm 0 (3 / 2), 0), (.znorm (1 / 10) 1, 1)]

def exFrames : List (MOp (ℤ × ℤ)) :=
  [.columns 1, .series [(1, 2), (5, 0), (2, 7), (8, 1), (3, 3)], .query [(4, 1), (4, 6), (7, 2)], .columns 1, .series [(9, 9)], .columns 3,
   .query [(0, 5)], .columns 3]

noncomputable def exFrameCalls : List (Streaming.Op ℝ) :=
  [.columns (fun _ => false) (.float (.fin (1 / 3))),
   .series (.d2 [[.fin 1, .fin 5, .fin 2, .fin 8, .fin 3], [.fin 2, .fin 0, .fin 7, .fin 1, .fin 3]] 5),
   .query (.d2 [[.fin 4, .fin 4, .fin 7], [.fin 1, .fin 6, .fin 2]] 3),
   -- interrupted at column 1
   .columns (fun c => c == 1) (.float (.fin 1)), .series (.d1 [.fin 9, .fin 9]), .columns (fun _ => false) (.int 3),
   .query (.d1 [.fin 0, .fin 5]), .columns (fun _ => true) (.int 3)]

example : StreamArgs 2 4 (some 3) 2 none exKinds [[0, 2], [1]] [2, 0, 1] := by
  refine ⟨by decide, by decide, by simp, by simp, ?_, ?_, ?_, by decide, ?_⟩
  · simp [exKinds, GenKind.ScaleOk]; norm_num
  · simp [exKinds]
  · simp [exKinds]
  · intro id; simp; omega

example : AreCalls 2 exChan 2 4 (some 3) MSt.init exFrames exFrameCalls := by
  refine ⟨⟨1, .inr ⟨1 / 3, rfl, by norm_num, by norm_num, by norm_num⟩, by simp, .inl rfl⟩, .inl ?_, .inl ?_,
    ⟨3, .inr ⟨1, rfl, by norm_num, by norm_num, by norm_num⟩, ?_, .inr ⟨by simp [MSt.step, MSt.init, lastN], by omega, rfl⟩⟩, .inr ⟨(9, 9), rfl, ?_⟩,
    ⟨3, .inl rfl, by simp, .inl rfl⟩, .inr ⟨(0, 5), rfl, ?_⟩, ⟨3, .inl rfl, ?_, .inl rfl⟩, trivial⟩
  · simp [exChan, List.range_succ]
  · simp [exChan, List.range_succ]
  · intro c _ h; simp; omega
  · simp [exChan, List.range_succ]
  · simp [exChan, List.range_succ]
  · intro c h1 h2
    simp [MSt.step, MSt.init, lastN] at h1
    omega

example : MSt.init.All 2 4 (some 3) (fun u op => u.Valid 2 (some 3) op ∧ ∀ k, op = .columns k → ∀ g ∈ exKinds,
    g.1.Good 2 (lastN 4 (u.s.map (exChan g.2))) (lastN 3 (u.q.map (exChan g.2)))) exFrames := by
  have key : ∀ s q : List (ℤ × ℤ), ∀ g ∈ exKinds, g.1.Good 2 (lastN 4 (s.map (exChan g.2))) (lastN 3 (q.map (exChan g.2))) := by
    intro s q g hg
    simp only [exKinds, List.mem_cons, List.not_mem_nil, or_false] at hg
    rcases hg with rfl | rfl | rfl
    · refine noTiny_int _ _ _ ?_ ?_ <;>
      · intro x hx
        obtain ⟨z, -, rfl⟩ := List.mem_map.mp (List.mem_of_mem_drop (by simpa [lastN] using hx))
        exact ⟨z.2, by simp [exChan]⟩
    · trivial
    · trivial
  refine ⟨⟨?_, fun _ _ => key _ _⟩, ⟨?_, fun _ _ => key _ _⟩, ⟨?_, fun _ _ => key _ _⟩, ⟨?_, fun _ _ => key _ _⟩, ⟨?_, fun _ _ => key _ _⟩,
    ⟨?_, fun _ _ => key _ _⟩, ⟨?_, fun _ _ => key _ _⟩, ⟨?_, fun _ _ => key _ _⟩, trivial⟩ <;> simp [MSt.Valid, MSt.step, MSt.init]

/-- What the first consumer receives: before the query arrives nothing, then column 0, the shift of the series window, columns 0, 1, 2 in a
frame of reference moved by one, and the shift of the query window; the last call finds nothing to do. -/
example (D : Nat → List (ℤ × ℤ) → List (ℤ × ℤ) → Fl ℚ) :
    (MSt.allEvents 2 4 (some 3) (-1) D [0, 2] MSt.init exFrames).map (fun e => match e with
      | .column c v => (c, v.map List.length) | .diagonal d _ => (d, [77]) | .shiftSeries n => (n, [1000]) | .shiftQuery n => (n, [2000])) =
    [(1, [1000]), (0, [2, 2]), (1, [1000]), (0, [2, 2]), (1, [2, 2]), (2, [2, 2]), (1, [2000])] := by
  rfl

end Verif
