import Verif.Props.BatchFeed
import Verif.Lemmas.CaseExamples

/-!
# C75: what consumers receive, whatever the data

C62 and C66 without the restriction on the data of Euclidean generators: diagonals and z-normalised columns are exact, Euclidean columns
are near the distances (`Spec.NearDist`).
-/

namespace Verif
open Spec
variable {α C : Type}

/-- How the values of columns of a generator relate to the distances. -/
def GenKind.Near : GenKind → Fl ℝ → Fl ℝ → Prop
  | .euclidean _ => NearDist
  | .znorm _ _ => Eq

/-- The same for all generators of a calculator. -/
def nearRel (kinds : List (GenKind × Nat)) (id : Nat) : Fl ℝ → Fl ℝ → Prop :=
  match kinds[id]? with
  | some (k, _) => k.Near
  | none => Eq

theorem GenKind.near_refl (m : Nat) (k : GenKind) (a b : List ℝ) : k.Near (k.dist m a b) (k.dist m a b) := by
  cases k with
  | euclidean scale => exact ⟨_, rfl, .inr ⟨_, rfl, Real.sqrt_nonneg _, le_rfl, by rw [sub_self]; norm_num⟩⟩
  | znorm noise scale => exact rfl

/-- The relation of cached squares to squared distances. -/
def Eucl.Below (v d : ℝ) : Prop := v ≤ d ∧ d - v < 1 / 10 ^ 15

theorem Eucl.below_starts (m : Nat) (s q : List ℝ) : Eucl.Starts Eucl.Below m s q := by
  intro i j _ _
  have := Eucl.sqd_nonneg m (seqOf s) (seqOf q) i j
  unfold Eucl.clamp Eucl.eps Eucl.Below
  split
  · rename_i h; exact ⟨this, by rw [sub_zero]; exact h⟩
  · exact ⟨le_rfl, by rw [sub_self]; norm_num⟩

theorem Eucl.nearServes (mem : Nat → List (Fl ℝ)) (hmem : ∀ n, (mem n).length = n) (m N : Nat) (M : Option Nat) :
    NearServes .fin (genOps mem Real.sqrt) m N M (dist Real.sqrt m) NearDist (fun st op => st.Valid m M op ∧ st.Safe op)
      (fun g st => g.Data m N M st.s st.q ∧ g.Cache (fun a b => (a - b) ^ 2) clamp Below m N st.s st.q st.last) := by
  have hP : ∀ v d a b : ℝ, Below v d → Below (v - a + b) (d - a + b) := fun v d a b h => ⟨by linarith [h.1], by linarith [h.2]⟩
  refine ⟨?_, ?_, ?_, ?_⟩
  · intro g st v hi hok
    obtain ⟨g', h1, h2, h3⟩ := exec_cache mem hmem Real.sqrt hP g m N M st (.series v) hi.1 hi.2 ⟨hok.1, hok.2, fun c h => below_starts _ _ _⟩
    exact ⟨g', h1, h2, h3⟩
  · intro g st v hi hok
    obtain ⟨g', h1, h2, h3⟩ := exec_cache mem hmem Real.sqrt hP g m N M st (.query v) hi.1 hi.2 ⟨hok.1, hok.2, fun c h => below_starts _ _ _⟩
    exact ⟨g', h1, h2, h3⟩
  · intro g st c hi hok
    obtain ⟨g', vs, h1, h2, h3, h4, h5⟩ := calcColumn_ok mem hmem Real.sqrt hP g m N M st c hi.1 hi.2 ⟨hok.1, hok.2, fun c h => below_starts _ _ _⟩
    refine ⟨g', vs, h1, h4, fun i v hv => ?_, h2, h3⟩
    have hi' : i < vs.length := (List.getElem?_eq_some_iff.mp hv).1
    obtain ⟨x, h6, h7, h8⟩ := h5 i (by have := hok.1.2; omega)
    rw [h6] at hv
    obtain rfl := Option.some.inj hv
    have h0 := sqd_nonneg m (seqOf st.s) (seqOf st.q) i c
    have hsq := Real.sq_sqrt h0
    unfold dist
    rw [sqd_win]
    refine ⟨_, rfl, ?_⟩
    rw [hsq]
    by_cases hx : x < 0
    · exact .inl ⟨by rw [Fl.sqrtF, if_pos hx], by linarith⟩
    · refine .inr ⟨Real.sqrt x, by rw [Fl.sqrtF, if_neg hx], Real.sqrt_nonneg _, Real.sqrt_le_sqrt h7, ?_⟩
      rw [Real.sq_sqrt (not_lt.mp hx)]
      exact h8
  · intro g st d hi hok
    refine ⟨g, ?_, hi⟩
    show (calcDiagonal Real.sqrt g d).map _ = _
    rw [calcDiagonal_ok Real.sqrt g m N M st d hi.1 hok.1]
    simp only [Except.map, dist, sqd_win]

section
variable {A B K : Type}

theorem NearServes.inl {a : GenOps A K} {b : GenOps B K} {m N : Nat} {M : Option Nat} {D : List K → List K → Fl K} {Rel : Fl K → Fl K → Prop}
    {Ok : GSt K → GOp K → Prop} {Inv : A → GSt K → Prop} (H : NearServes .fin a m N M D Rel Ok Inv) :
    NearServes .fin (a.sum b) m N M D Rel Ok (fun g st => ∃ x, g = .inl x ∧ Inv x st) := by
  refine ⟨?_, ?_, ?_, ?_⟩
  · rintro g st v ⟨x, rfl, hi⟩ hok
    obtain ⟨x', h1, h2⟩ := H.series x st v hi hok
    exact ⟨.inl x', by simp [GenOps.sum, h1, Except.map], x', rfl, h2⟩
  · rintro g st v ⟨x, rfl, hi⟩ hok
    obtain ⟨x', h1, h2⟩ := H.query x st v hi hok
    exact ⟨.inl x', by simp [GenOps.sum, h1, Except.map], x', rfl, h2⟩
  · rintro g st v ⟨x, rfl, hi⟩ hok
    obtain ⟨x', vs, h1, h2, h3, h4⟩ := H.column x st v hi hok
    exact ⟨.inl x', vs, by simp [GenOps.sum, h1, Except.map], h2, h3, x', rfl, h4⟩
  · rintro g st v ⟨x, rfl, hi⟩ hok
    obtain ⟨x', h1, h2⟩ := H.diag x st v hi hok
    exact ⟨.inl x', by simp [GenOps.sum, h1, Except.map], x', rfl, h2⟩

end

/-- The state of a generator fits the calls made so far, any data. -/
def GenKind.NearHolds (m N : Nat) (M : Option Nat) : GenKind → ColCache ℝ ⊕ ZN → GSt ℝ → Prop
  | .euclidean _, g, st => ∃ x : ColCache ℝ, g = .inl x ∧ x.Data m N M st.s st.q ∧
      x.Cache (fun a b => (a - b) ^ 2) Eucl.clamp Eucl.Below m N st.s st.q st.last
  | .znorm noise _, g, st => ∃ x : ZN, g = .inr x ∧ x.Base m noise N M st.s st.q ∧ x.CacheOk m N st

theorem GenKind.nearServes (memE : Nat → List (Fl ℝ)) (hmemE : ∀ n, (memE n).length = n) (memZ : ZN.Mem) (hmemZ : memZ.Ok) (m N : Nat) (M : Option Nat)
    (k : GenKind) : NearServes .fin (GenKind.ops memE memZ) m N M (k.dist m) k.Near (fun st op => st.Valid m M op ∧ st.Safe op) (k.NearHolds m N M) := by
  cases k with
  | euclidean scale => exact (Eucl.nearServes memE hmemE m N M).inl
  | znorm noise scale => exact (ZN.serves memZ hmemZ noise m N M).inr.near

theorem GenKind.near_streaming (memE : Nat → List (Fl ℝ)) (hmemE : ∀ n, (memE n).length = n) (memZ : ZN.Mem) (hmemZ : memZ.Ok) (m N : Nat)
    (M : Option Nat) (hm0 : 0 < m) (hN : m ≤ N) (hM : ∀ M', M = some M' → m ≤ M') (k : GenKind) (hsc : k.ScaleOk) :
    ∃ x, k.streaming memE memZ m N (M.map fun M : Nat => (M : Int)) = .ok x ∧ k.NearHolds m N M x ⟨[], [], none⟩ := by
  cases k with
  | euclidean scale =>
    have hfr : Eucl.Fresh memE m (Eucl.prepareStreaming memE scale m N M) N M ⟨[], [], none⟩ := Eucl.Fresh.streaming scale N M hsc.1 hsc.2 hN
      (by intro h; have := hM 0 h; omega)
    refine ⟨.inl (Eucl.prepareStreaming memE scale m N M), ?_, _, rfl, (hfr.data hmemE hm0).1, hfr.cache hmemE hm0⟩
    simp [GenKind.streaming, Eucl.streaming, Option.map_map, Function.comp_def, Except.map]
  | znorm noise scale => exact GenKind.streaming_ok memE hmemE memZ hmemZ m N M hm0 hN hM (.znorm noise scale) hsc

theorem GenKind.near_prepare (memE : Nat → List (Fl ℝ)) (hmemE : ∀ n, (memE n).length = n) (memZ : ZN.Mem) (hmemZ : memZ.Ok) (m : Nat) (hm0 : 0 < m)
    (s : List ℝ) (q : Option (List ℝ)) (hs : m ≤ s.length) (hq : ∀ q', q = some q' → m ≤ q'.length) (k : GenKind) :
    ∃ x, k.prepare memE memZ m (s.map .fin) (q.map (·.map .fin)) = .ok x ∧ k.NearHolds m s.length (q.map (·.length)) x ⟨s, q.getD s, none⟩ := by
  cases k with
  | euclidean scale =>
    have hne : q ≠ some [] := by intro h; have := hq [] h; simp at this; omega
    obtain ⟨g, h1, -⟩ := Eucl.prepare_ok memE hmemE m hm0 s q hs hne
    have hfr : Eucl.Fresh memE m g s.length (q.map (·.length)) ⟨s, q.getD s, none⟩ := .batch s q g hs hne h1
    refine ⟨.inl g, ?_, g, rfl, (hfr.data hmemE hm0).1, hfr.cache hmemE hm0⟩
    simp [GenKind.prepare, h1, Except.map]
  | znorm noise scale => exact GenKind.prepare_ok memE hmemE memZ hmemZ m hm0 s q hs hq (.znorm noise scale)

/-- **C75, streaming.** A `StreamingCalculator` with any channels, generators and consumers, on any data: if the consumers accept the calls of
`MSt.allEventsOf` for all tables near the distances, then no call raises, and the consumers are in the state that these calls leave them in for
some tables near the distances. -/
theorem C75_stream_feed (memE : Nat → List (Fl ℝ)) (hmemE : ∀ n, (memE n).length = n) (memZ : ZN.Mem) (hmemZ : memZ.Ok)
    (ops : Ops (ColCache ℝ ⊕ ZN) C ℝ) (hops : ops.gen = GenKind.ops memE memZ) (π : Nat → α → ℝ)
    (m N : Nat) (M : Option Nat) (nDim : Nat) (buffer : Option Int) (kinds : List (GenKind × Nat)) (consumers cons1 : List (C × List Nat))
    (needed : List Nat) (ha : StreamArgs m N M nDim buffer kinds (consumers.map (·.2)) needed)
    (hinit : List.Forall₂ (fun c c' => c'.2 = c.2 ∧ ops.initialise c.1 c.2.length ((M.getD N + 1 - m : Nat) : Int) ((N + 1 - m : Nat) : Int) = .ok c'.1)
      consumers cons1)
    (us : List (MOp α)) (os : List (Streaming.Op ℝ)) (hc : AreCalls nDim π m N M MSt.init us os)
    (hall : MSt.init.All m N M (fun u op => u.Valid m M op) us)
    (hf : ∀ vs : List (MOp α × Table ℝ), vs.map Prod.fst = us → MSt.init.AllNear m N M kinds.length (nearRel kinds) (streamDist π m kinds) vs →
      ∃ cons2, AllFed ops (fun ids => MSt.allEventsOf m N M (bufferOf m M buffer) (streamDist π m kinds) ids MSt.init vs) cons1 cons2) :
    ∃ vs : List (MOp α × Table ℝ), vs.map Prod.fst = us ∧ MSt.init.AllNear m N M kinds.length (nearRel kinds) (streamDist π m kinds) vs ∧
      ∃ cons2, streamAll ops (kinds.map fun k => (k.1.streaming memE memZ, k.2)) consumers needed m N (M.map fun M : Nat => (M : Int)) nDim buffer os =
          .ok cons2 ∧
        AllFed ops (fun ids => MSt.allEventsOf m N M (bufferOf m M buffer) (streamDist π m kinds) ids MSt.init vs) cons1 cons2 := by
  have hm0 := ha.pos
  have hN := ha.series
  have hM := ha.query
  have key : ∀ (i : Nat) k, kinds[i]? = some k → ∃ x, k.1.streaming memE memZ m N (M.map fun M : Nat => (M : Int)) = .ok x ∧
      k.1.NearHolds m N M x ⟨[], [], none⟩ := fun i k h =>
    GenKind.near_streaming memE hmemE memZ hmemZ m N M hm0 hN hM k.1 (ha.scale k (List.mem_of_getElem? h))
  set D : Nat → List ℝ → List ℝ → Fl ℝ := fun i => match kinds[i]? with
    | some k => k.1.dist m
    | none => fun _ _ => .nan with hD
  have hget : ∀ i < (kinds.map fun k => (k.1.streaming memE memZ, k.2)).length, ∃ k, kinds[i]? = some k := by
    intro i hi
    rw [List.length_map] at hi
    exact ⟨_, List.getElem?_eq_getElem hi⟩
  have hDk : ∀ i k, kinds[i]? = some k → D i = k.1.dist m := by
    intro i k h; simp [hD, h]
  have hRk : ∀ i k, kinds[i]? = some k → nearRel kinds i = k.1.Near := by
    intro i k h; simp [nearRel, h]
  have hdist : frameDist π ((kinds.map fun k => (k.1.streaming memE memZ, k.2)).map (·.2)) D = streamDist π m kinds := by
    funext id a b
    unfold frameDist streamDist
    cases h : kinds[id]? with
    | none => simp [hD, h]
    | some k => simp [hDk _ _ h, h]
  have hlen : (kinds.map fun k => (k.1.streaming memE memZ, k.2)).length = kinds.length := by simp
  have := streamAll_near (ops := ops) (D := D) (Rel := nearRel kinds) (Ok := fun _ st op => st.Valid m M op ∧ st.Safe op)
    (Inv := fun i x st => ∀ k, kinds[i]? = some k → k.1.NearHolds m N M x st) (π := π) (nDim := nDim)
    (kinds.map fun k => (k.1.streaming memE memZ, k.2)) ?_ ?_ hm0 hN hM ?_ ?_ needed
    (fun _ _ _ => True) (fun i _ w x => ⟨trivial, trivial⟩) (fun h i _ w x => ⟨h, trivial⟩)
    (fun i _ s q l c _ h1 h2 h3 => ⟨⟨h1, h2⟩, h3⟩) buffer ha.buffer consumers cons1 ?_ ?_ hinit us os hc ?_ ?_
  · rw [hdist, hlen] at this
    exact this
  · intro i hi
    obtain ⟨k, h⟩ := hget i hi
    rw [hDk i k h, hRk i k h, hops]
    have := GenKind.nearServes memE hmemE memZ hmemZ m N M k.1
    simpa [h] using this
  · intro i a b
    cases h : kinds[i]? with
    | none => simp [nearRel, h]
    | some k => rw [hDk i k h, hRk i k h]; exact k.1.near_refl m a b
  · intro g hg
    obtain ⟨k, h1, rfl⟩ := List.mem_map.mp hg
    exact ha.chan k h1
  · intro i g hg
    rw [List.getElem?_map] at hg
    obtain ⟨k, h1, rfl⟩ := Option.map_eq_some_iff.mp hg
    obtain ⟨x, h2, h3⟩ := key i k h1
    exact ⟨x, h2, fun k' hk' => by rw [h1] at hk'; cases hk'; exact h3⟩
  · refine ⟨ha.nodup, fun id => ?_⟩
    rw [ha.needed]
    constructor
    · rintro ⟨ids, h1, h2⟩
      obtain ⟨c, h3, rfl⟩ := List.mem_map.mp h1
      exact ⟨c, h3, h2⟩
    · rintro ⟨c, h1, h2⟩
      exact ⟨c.2, List.mem_map_of_mem h1, h2⟩
  · intro c hc' id hid
    rw [List.length_map]
    exact ha.ids c.2 (List.mem_map_of_mem hc') id hid
  · clear hc hf
    revert hall
    generalize (MSt.init : MSt α) = u
    induction us generalizing u with
    | nil => intro _; trivial
    | cons x us ih =>
      intro h
      exact ⟨⟨h.1, fun _ _ _ _ _ => trivial⟩, ih _ h.2⟩
  · rw [hdist, hlen]; exact hf

/-- **C75, streaming, in terms of consumers that note their calls.** No restriction on the data. -/
theorem C75_stream_recorded (memE : Nat → List (Fl ℝ)) (hmemE : ∀ n, (memE n).length = n) (memZ : ZN.Mem) (hmemZ : memZ.Ok)
    (π : Nat → α → ℝ) (m N : Nat) (M : Option Nat) (nDim : Nat) (buffer : Option Int) (kinds : List (GenKind × Nat)) (idss : List (List Nat))
    (needed : List Nat) (ha : StreamArgs m N M nDim buffer kinds idss needed)
    (us : List (MOp α)) (os : List (Streaming.Op ℝ)) (hc : AreCalls nDim π m N M MSt.init us os)
    (hall : MSt.init.All m N M (fun u op => u.Valid m M op) us) :
    ∃ vs : List (MOp α × Table ℝ), vs.map Prod.fst = us ∧ MSt.init.AllNear m N M kinds.length (nearRel kinds) (streamDist π m kinds) vs ∧
      streamAll (recorder (GenKind.ops memE memZ)) (kinds.map fun k => (k.1.streaming memE memZ, k.2)) (idss.map fun ids => ([], ids)) needed m N
          (M.map fun M : Nat => (M : Int)) nDim buffer os =
        .ok (idss.map fun ids => (MSt.allEventsOf m N M (bufferOf m M buffer) (streamDist π m kinds) ids MSt.init vs, ids)) := by
  have hfed : ∀ vs : List (MOp α × Table ℝ),
      AllFed (recorder (GenKind.ops memE memZ)) (fun ids => MSt.allEventsOf m N M (bufferOf m M buffer) (streamDist π m kinds) ids MSt.init vs)
        (idss.map fun ids => ([], ids))
        (idss.map fun ids => (MSt.allEventsOf m N M (bufferOf m M buffer) (streamDist π m kinds) ids MSt.init vs, ids)) := by
    intro vs
    unfold AllFed
    rw [List.forall₂_map_left_iff, List.forall₂_map_right_iff, List.forall₂_same]
    exact fun ids _ => ⟨rfl, by rw [recorder_feed, List.nil_append]⟩
  obtain ⟨vs, h1, h2, cons2, h3, h4⟩ := C75_stream_feed memE hmemE memZ hmemZ (recorder (GenKind.ops memE memZ)) rfl π m N M nDim buffer kinds
    (idss.map fun ids => ([], ids)) (idss.map fun ids => ([], ids)) needed (by simpa [List.map_map, Function.comp_def] using ha) (by
      rw [List.forall₂_map_left_iff, List.forall₂_map_right_iff, List.forall₂_same]
      exact fun _ _ => ⟨rfl, rfl⟩) us os hc hall (fun vs _ _ => ⟨_, hfed vs⟩)
  exact ⟨vs, h1, h2, by rw [h3, h4.unique (hfed vs)]⟩

/-- **C75, batch.** An `AnytimeCalculator` with any channels, generators and consumers, on any data: if the consumers accept the calls of
`BSt.allEventsOf` for all tables near the distances, then no call raises, and the consumers are in the state that these calls leave them in for
some tables near the distances. -/
theorem C75_batch_feed (memE : Nat → List (Fl ℝ)) (hmemE : ∀ n, (memE n).length = n) (memZ : ZN.Mem) (hmemZ : memZ.Ok)
    (ops : Ops (ColCache ℝ ⊕ ZN) C ℝ) (hops : ops.gen = GenKind.ops memE memZ) (shuffle : List Int → List Int) (hsh : ∀ l, (shuffle l).Perm l)
    (π : Nat → α → ℝ) (m : Nat) (s : List α) (query : Option (List α)) (nDim : Nat) (buffer : Option Int) (kinds : List (GenKind × Nat))
    (consumers cons1 : List (C × List Nat)) (needed : List Nat) (ha : BatchArgs m s query nDim buffer kinds (consumers.map (·.2)) needed)
    (hinit : List.Forall₂ (fun c c' => c'.2 = c.2 ∧
      ops.initialise c.1 c.2.length (((query.getD s).length + 1 - m : Nat) : Int) ((s.length + 1 - m : Nat) : Int) = .ok c'.1) consumers cons1)
    (us : List BOp) (os : List Anytime.Op)
    (hc : AreBatchCalls m (query.getD s).length s.length (batchOrder shuffle m s query buffer) BSt.init us os)
    (hf : ∀ vs : List (BOp × Table ℝ), vs.map Prod.fst = us →
      (∀ x ∈ vs, NearTable m kinds.length (nearRel kinds) (streamDist π m kinds) s (query.getD s) x.2) →
      ∃ cons2, AllFed ops (fun ids => BSt.allEventsOf m query.isNone (batchBuffer m query buffer) (batchOrder shuffle m s query buffer) (streamDist π m kinds)
        s (query.getD s) ids BSt.init vs) cons1 cons2) :
    ∃ vs : List (BOp × Table ℝ), vs.map Prod.fst = us ∧
      (∀ x ∈ vs, NearTable m kinds.length (nearRel kinds) (streamDist π m kinds) s (query.getD s) x.2) ∧
      ∃ cons2, batchAll ops shuffle (kinds.map fun k => (k.1.prepare memE memZ, k.2)) consumers needed m (frameRows π nDim s) (query.map (frameRows π nDim))
          buffer os = .ok cons2 ∧
        AllFed ops (fun ids => BSt.allEventsOf m query.isNone (batchBuffer m query buffer) (batchOrder shuffle m s query buffer) (streamDist π m kinds)
          s (query.getD s) ids BSt.init vs) cons1 cons2 := by
  have hm0 := ha.pos
  have hs := ha.series
  have hq := ha.queryLen
  have hql : m ≤ (query.getD s).length := by
    cases query with
    | none => exact hs
    | some q' => exact hq q' rfl
  set M : Option Nat := query.map (·.length) with hM
  set D : Nat → List ℝ → List ℝ → Fl ℝ := fun i => match kinds[i]? with
    | some k => k.1.dist m
    | none => fun _ _ => .nan with hD
  have hget : ∀ i < (kinds.map fun k => (k.1.prepare memE memZ, k.2)).length, ∃ k, kinds[i]? = some k := by
    intro i hi
    rw [List.length_map] at hi
    exact ⟨_, List.getElem?_eq_getElem hi⟩
  have hDk : ∀ i k, kinds[i]? = some k → D i = k.1.dist m := by
    intro i k h; simp [hD, h]
  have hRk : ∀ i k, kinds[i]? = some k → nearRel kinds i = k.1.Near := by
    intro i k h; simp [nearRel, h]
  have hdist : frameDist π ((kinds.map fun k => (k.1.prepare memE memZ, k.2)).map (·.2)) D = streamDist π m kinds := by
    funext id a b
    unfold frameDist streamDist
    cases h : kinds[id]? with
    | none => simp [hD, h]
    | some k => simp [hDk _ _ h, h]
  have hlen : (kinds.map fun k => (k.1.prepare memE memZ, k.2)).length = kinds.length := by simp
  have := batchAll_near (ops := ops) shuffle hsh (m := m) (D := D) (Rel := nearRel kinds) (Ok := fun _ st op => st.Valid m M op ∧ st.Safe op)
    (Inv := fun i x st => ∀ k, kinds[i]? = some k → k.1.NearHolds m s.length M x st) (π := π) (nDim := nDim)
    (kinds.map fun k => (k.1.prepare memE memZ, k.2)) s query ?_ ?_ hm0 ha.dims hs hq ?_ ?_ needed buffer ha.bufferLen
    (fun i g _ l d hv => ⟨hv, trivial⟩) us
    (fun _ i g _ l c hcm hsafe => ⟨⟨by simpa using hcm, by simpa using hql⟩, hsafe⟩)
    consumers cons1 ?_ ?_ hinit (batchOrder shuffle m s query buffer) ?_ os hc ?_
  · rw [hdist, hlen, bufferOf_batch] at this
    exact this
  · intro i hi
    obtain ⟨k, h⟩ := hget i hi
    rw [hDk i k h, hRk i k h, hops]
    have := GenKind.nearServes memE hmemE memZ hmemZ m s.length M k.1
    simpa [h] using this
  · intro i a b
    cases h : kinds[i]? with
    | none => simp [nearRel, h]
    | some k => rw [hDk i k h, hRk i k h]; exact k.1.near_refl m a b
  · intro g hg
    obtain ⟨k, h1, rfl⟩ := List.mem_map.mp hg
    exact ha.chan k h1
  · intro i g hg
    rw [List.getElem?_map] at hg
    obtain ⟨k, h1, rfl⟩ := Option.map_eq_some_iff.mp hg
    obtain ⟨x, h2, h3⟩ := GenKind.near_prepare memE hmemE memZ hmemZ m hm0 (s.map (π k.2)) (query.map (·.map (π k.2))) (by simpa using hs)
      (by intro q' h; obtain ⟨q, e1, rfl⟩ := Option.map_eq_some_iff.mp h; simpa using hq q e1) k.1
    refine ⟨x, ?_, fun k' hk' => ?_⟩
    · rw [← h2, Option.map_map]; rfl
    · rw [h1] at hk'
      cases hk'
      rw [hM]
      simpa [Option.map_map, Function.comp_def, apply_ite, Option.getD_map] using h3
  · refine ⟨ha.nodup, fun id => ?_⟩
    rw [ha.needed]
    constructor
    · rintro ⟨ids, h1, h2⟩
      obtain ⟨c, h3, rfl⟩ := List.mem_map.mp h1
      exact ⟨c, h3, h2⟩
    · rintro ⟨c, h1, h2⟩
      exact ⟨c.2, List.mem_map_of_mem h1, h2⟩
  · intro c hc' id hid
    rw [List.length_map]
    exact ha.ids c.2 (List.mem_map_of_mem hc') id hid
  · rw [bufferOf_batch]; rfl
  · rw [hdist, hlen, bufferOf_batch]; exact hf

/-- **C75, batch, in terms of consumers that note their calls.** No restriction on the data. -/
theorem C75_batch_recorded (memE : Nat → List (Fl ℝ)) (hmemE : ∀ n, (memE n).length = n) (memZ : ZN.Mem) (hmemZ : memZ.Ok)
    (shuffle : List Int → List Int) (hsh : ∀ l, (shuffle l).Perm l)
    (π : Nat → α → ℝ) (m : Nat) (s : List α) (query : Option (List α)) (nDim : Nat) (buffer : Option Int) (kinds : List (GenKind × Nat))
    (idss : List (List Nat)) (needed : List Nat) (ha : BatchArgs m s query nDim buffer kinds idss needed) (us : List BOp) (os : List Anytime.Op)
    (hc : AreBatchCalls m (query.getD s).length s.length (batchOrder shuffle m s query buffer) BSt.init us os) :
    ∃ vs : List (BOp × Table ℝ), vs.map Prod.fst = us ∧
      (∀ x ∈ vs, NearTable m kinds.length (nearRel kinds) (streamDist π m kinds) s (query.getD s) x.2) ∧
      batchAll (recorder (GenKind.ops memE memZ)) shuffle (kinds.map fun k => (k.1.prepare memE memZ, k.2)) (idss.map fun ids => ([], ids)) needed m
          (frameRows π nDim s) (query.map (frameRows π nDim)) buffer os =
        .ok (idss.map fun ids => (BSt.allEventsOf m query.isNone (batchBuffer m query buffer) (batchOrder shuffle m s query buffer) (streamDist π m kinds)
          s (query.getD s) ids BSt.init vs, ids)) := by
  have hfed : ∀ vs : List (BOp × Table ℝ), AllFed (recorder (GenKind.ops memE memZ))
      (fun ids => BSt.allEventsOf m query.isNone (batchBuffer m query buffer) (batchOrder shuffle m s query buffer) (streamDist π m kinds)
          s (query.getD s) ids BSt.init vs) (idss.map fun ids => ([], ids))
      (idss.map fun ids => (BSt.allEventsOf m query.isNone (batchBuffer m query buffer) (batchOrder shuffle m s query buffer) (streamDist π m kinds)
          s (query.getD s) ids BSt.init vs, ids)) := by
    intro vs
    unfold AllFed
    rw [List.forall₂_map_left_iff, List.forall₂_map_right_iff, List.forall₂_same]
    exact fun ids _ => ⟨rfl, by rw [recorder_feed, List.nil_append]⟩
  obtain ⟨vs, h1, h2, cons2, h3, h4⟩ := C75_batch_feed memE hmemE memZ hmemZ (recorder (GenKind.ops memE memZ)) rfl shuffle hsh π m s query nDim buffer kinds
    (idss.map fun ids => ([], ids)) (idss.map fun ids => ([], ids)) needed (by simpa [List.map_map, Function.comp_def] using ha) (by
      rw [List.forall₂_map_left_iff, List.forall₂_map_right_iff, List.forall₂_same]
      exact fun _ _ => ⟨rfl, rfl⟩) us os hc (fun vs _ _ => ⟨_, hfed vs⟩)
  exact ⟨vs, h1, h2, by rw [h3, h4.unique (hfed vs)]⟩

/-! ### Concrete cases -/

/-- What may stand for a distance of 2e-8, whose square is below 1e-15: NaN, 0 or the distance itself, but neither a larger number nor `+inf`. -/
example : NearDist (.fin (1 / 50000000)) .nan ∧ NearDist (.fin (1 / 50000000)) (.fin 0) ∧ NearDist (.fin (1 / 50000000)) (.fin (1 / 50000000)) ∧
    ¬ NearDist (.fin (1 / 50000000)) (.fin 1) ∧ ¬ NearDist (.fin (1 / 50000000)) .pinf := by
  refine ⟨⟨_, rfl, .inl ⟨rfl, by norm_num⟩⟩, ⟨_, rfl, .inr ⟨0, rfl, by norm_num, by norm_num, by norm_num⟩⟩,
    ⟨_, rfl, .inr ⟨_, rfl, by norm_num, by norm_num, by norm_num⟩⟩, ?_, ?_⟩
  · rintro ⟨x, h1, ⟨h2, -⟩ | ⟨y, h2, -, h3, -⟩⟩
    · cases h2
    · cases h1; cases h2; norm_num at h3
  · rintro ⟨x, h1, ⟨h2, -⟩ | ⟨y, h2, -⟩⟩ <;> cases h2

/-- A distance of 1 never becomes NaN, and what stands for it is within 1e-15 of it. -/
example : ¬ NearDist (.fin 1) .nan ∧ ∀ y : ℝ, NearDist (.fin 1) (.fin y) → |1 - y| < 1 / 10 ^ 15 := by
  constructor
  · rintro ⟨x, h1, ⟨-, h3⟩ | ⟨y, h2, -⟩⟩
    · cases h1; norm_num at h3
    · cases h2
  · rintro y ⟨x, h1, ⟨h2, -⟩ | ⟨z, h2, h3, h4, h5⟩⟩
    · cases h2
    · cases h1; cases h2
      rw [abs_of_nonneg (by linarith)]
      nlinarith

/-- Frames with subsequences at squared distance 4e-16 (channel 1), which C62 and C66 exclude for the Euclidean generator. -/
noncomputable def exTiny : List (ℝ × ℝ) := [(1, 2), (5, 0), (2, 2 + 1 / 50000000), (8, 0), (3, 3)]

noncomputable def tinyChan (ch : Nat) (x : ℝ × ℝ) : ℝ := if ch = 0 then x.1 else x.2

theorem exTiny_args : BatchArgs 2 exTiny none 2 (some 0) exKinds [[0, 2], [1]] [2, 0, 1] := by
  refine ⟨by decide, by simp [exTiny], by simp, by decide, by simp [exTiny], ?_, ?_, by decide, ?_⟩
  · simp [exKinds]
  · simp [exKinds]
  · intro id; simp; omega

example : ¬ (GenKind.euclidean 2).Good 2 (exTiny.map (tinyChan 1)) (exTiny.map (tinyChan 1)) := by
  intro h
  have := h 2 0 (by simp [exTiny]) (by simp [exTiny])
  simp only [sqd, Finset.sum_range_succ, Finset.sum_range_zero, seqOf, exTiny] at this
  norm_num [tinyChan, Eucl.eps] at this

/-- The calls of C66 on these data: no restriction is left. -/
example : ∃ vs : List (BOp × Table ℝ), vs.map Prod.fst = [.diagonals 2, .columns 1 2, .diagonals 3] ∧
    (∀ x ∈ vs, NearTable 2 3 (nearRel exKinds) (streamDist tinyChan 2 exKinds) exTiny exTiny x.2) ∧
    batchAll (recorder (GenKind.ops (fun n => List.replicate n .nan) ZN.zeroMem)) List.reverse
        (exKinds.map fun k => (k.1.prepare (fun n => List.replicate n .nan) ZN.zeroMem, k.2)) [([], [0, 2]), ([], [1])] [2, 0, 1] 2
        (frameRows tinyChan 2 exTiny) none (some 0)
        [.diagonals (fun n => n == 2) (.float (.fin 1)), .columns (fun _ => false) (some (.int 1)) (.int 2), .diagonals (fun _ => false) (.int 100)] =
      .ok [(BSt.allEventsOf 2 true 0 [3, 2, 1] (streamDist tinyChan 2 exKinds) exTiny exTiny [0, 2] BSt.init vs, [0, 2]),
        (BSt.allEventsOf 2 true 0 [3, 2, 1] (streamDist tinyChan 2 exKinds) exTiny exTiny [1] BSt.init vs, [1])] :=
  C75_batch_recorded (fun n => List.replicate n .nan) (fun _ => List.length_replicate) ZN.zeroMem ZN.zeroMem_ok List.reverse List.reverse_perm tinyChan 2 exTiny none 2
    (some 0) exKinds [[0, 2], [1]] [2, 0, 1] exTiny_args _ _ exBatch_calls

/-- The calls of C62, with the consumers noting theirs. -/
example : ∃ vs : List (MOp (ℤ × ℤ) × Table ℝ), vs.map Prod.fst = exFrames ∧
    MSt.init.AllNear 2 4 (some 3) 3 (nearRel exKinds) (streamDist exChan 2 exKinds) vs ∧
    streamAll (recorder (GenKind.ops (fun n => List.replicate n .nan) ZN.zeroMem))
        (exKinds.map fun k => (k.1.streaming (fun n => List.replicate n .nan) ZN.zeroMem, k.2)) [([], [0]), ([], [2])] [0, 2] 2 4 (some 3) 2 none exFrameCalls =
      .ok [(MSt.allEventsOf 2 4 (some 3) (-1) (streamDist exChan 2 exKinds) [0] MSt.init vs, [0]),
        (MSt.allEventsOf 2 4 (some 3) (-1) (streamDist exChan 2 exKinds) [2] MSt.init vs, [2])] :=
  have h := exStreamCase_ok (idss := [[0], [2]]) (by simp) (by simp) (by simp)
  C75_stream_recorded (fun n => List.replicate n .nan) (fun _ => List.length_replicate) ZN.zeroMem ZN.zeroMem_ok exChan 2 4 (some 3) 2 none exKinds [[0], [2]] [0, 2]
    h.args exFrames exFrameCalls h.calls h.valid

/-- `C75_batch_feed` with consumers that note their calls. -/
example := C75_batch_feed (fun n => List.replicate n .nan) (fun _ => List.length_replicate) ZN.zeroMem ZN.zeroMem_ok (recorder (GenKind.ops (fun n => List.replicate n .nan) ZN.zeroMem)) rfl
  List.reverse List.reverse_perm tinyChan 2 exTiny none 2 (some 0) exKinds [([], [0, 2]), ([], [1])] [([], [0, 2]), ([], [1])] [2, 0, 1] exTiny_args
  (.cons ⟨rfl, rfl⟩ (.cons ⟨rfl, rfl⟩ .nil)) _ _ exBatch_calls
  (fun vs _ _ => ⟨[(BSt.allEventsOf 2 true 0 [3, 2, 1] (streamDist tinyChan 2 exKinds) exTiny exTiny [0, 2] BSt.init vs, [0, 2]),
    (BSt.allEventsOf 2 true 0 [3, 2, 1] (streamDist tinyChan 2 exKinds) exTiny exTiny [1] BSt.init vs, [1])],
    .cons ⟨rfl, recorder_feed _ _ _⟩ (.cons ⟨rfl, recorder_feed _ _ _⟩ .nil)⟩)

end Verif
