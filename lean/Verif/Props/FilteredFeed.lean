import Verif.Lemmas.FilteredGens
import Verif.Lemmas.NearCases

/-!
# C78: what consumers receive from generators with filters

The data of a channel may now contain NaN and infinities where all generators of the channel are wrapped in a `FilterGenerator` whose function marks them.
The specification is that of C75 with the distances of `FKind.dist`: `+inf` for pairs in which one subsequence contains a marked point, and otherwise
the distance of the (then finite) subsequences.
-/

namespace Verif
open Spec
variable {α C : Type}

/-- The distance of two subsequences (of frames) by generator `id`. -/
noncomputable def filteredDist (π : Nat → α → Fl ℝ) (m : Nat) (kinds : List (FKind × Nat)) (id : Nat) (a b : List α) : Fl ℝ :=
  match kinds[id]? with
  | some (k, ch) => k.dist m (a.map (π ch)) (b.map (π ch))
  | none => .nan

/-- How values of columns relate to the distances of generator `id`. -/
def filteredRel (kinds : List (FKind × Nat)) (id : Nat) : Fl ℝ → Fl ℝ → Prop :=
  match kinds[id]? with
  | some (k, _) => k.Near
  | none => Eq

/-- The same for a description of the generators without filters. -/
def modeRel (μ : GenMode) (kinds : List (FKind × Nat)) (id : Nat) : Fl ℝ → Fl ℝ → Prop :=
  match kinds[id]? with
  | some (k, _) => k.Rel μ
  | none => Eq

theorem modeRel_near (kinds : List (FKind × Nat)) : modeRel nearMode kinds = filteredRel kinds := by
  funext id
  unfold modeRel filteredRel
  cases kinds[id]? with
  | none => rfl
  | some k => exact k.1.rel_near

theorem filteredRel_refl (π : Nat → α → Fl ℝ) (m : Nat) (kinds : List (FKind × Nat)) (id : Nat) (a b : List α) :
    filteredRel kinds id (filteredDist π m kinds id a b) (filteredDist π m kinds id a b) := by
  unfold filteredRel filteredDist
  cases h : kinds[id]? with
  | none => rfl
  | some k =>
    have := k.1.rel_refl nearMode m (a.map (π k.2)) (b.map (π k.2))
    rwa [FKind.rel_near] at this

/-- The generators without their filters. -/
def innerKinds (kinds : List (FKind × Nat)) : List (GenKind × Nat) := kinds.map fun k => (k.1.inner, k.2)

/-- A batch calculation with filters: uninitialised memory, shuffle, channels, data, generators, and calls with what they calculate. -/
structure FilteredBatch (α : Type) where
  memE : Nat → List (Fl ℝ)
  memZ : ZN.Mem
  shuffle : List Int → List Int
  π : Nat → α → Fl ℝ
  m : Nat
  s : List α
  query : Option (List α)
  nDim : Nat
  buffer : Option Int
  kinds : List (FKind × Nat)
  needed : List Nat
  us : List BOp
  os : List Anytime.Op

namespace FilteredBatch
variable (B : FilteredBatch α)

/-- The query, the series itself in a self-join. -/
def q : List α := B.query.getD B.s
/-- Number of subsequences of the query. -/
def h : Nat := B.q.length + 1 - B.m
/-- Number of subsequences of the series. -/
def w : Nat := B.s.length + 1 - B.m
/-- The trivial match buffer. -/
def b : Int := batchBuffer B.m B.query B.buffer
/-- The order of the diagonals. -/
def order : List Int := batchOrder B.shuffle B.m B.s B.query B.buffer
/-- The distances of generator `id`. -/
noncomputable def dist (id : Nat) (a b : List α) : Fl ℝ := filteredDist B.π B.m B.kinds id a b
/-- Tables of values for the calls: in columns near the distances. -/
def Near (vs : List (BOp × Table ℝ)) : Prop :=
  vs.map Prod.fst = B.us ∧ ∀ x ∈ vs, NearTable B.m B.kinds.length (filteredRel B.kinds) B.dist B.s B.q x.2
/-- The same with another relation. -/
def NearOf (Rel : Nat → Fl ℝ → Fl ℝ → Prop) (vs : List (BOp × Table ℝ)) : Prop :=
  vs.map Prod.fst = B.us ∧ ∀ x ∈ vs, NearTable B.m B.kinds.length Rel B.dist B.s B.q x.2
/-- The calls that a consumer of the generators `ids` receives if columns have the values `vs`. -/
noncomputable def events (vs : List (BOp × Table ℝ)) (ids : List Nat) : List (CEvent ℝ) :=
  BSt.allEventsOf B.m B.query.isNone B.b B.order B.dist B.s B.q ids BSt.init vs
/-- The consumers with their generator ids at the end. -/
noncomputable def result (ops : Ops FGen C ℝ) (consumers : List (C × List Nat)) : Except PyErr (List (C × List Nat)) :=
  batchAll ops B.shuffle (B.kinds.map fun k => (k.1.prepare B.memE B.memZ, k.2)) consumers B.needed B.m
    (frameRowsOf B.π B.nDim B.s) (B.query.map (frameRowsOf B.π B.nDim)) B.buffer B.os

/-- Arguments that the constructors accept, consumers `idss` of existing generators, calls with proper arguments; the data are finite in channels of
generators without filter. -/
structure Ok (idss : List (List Nat)) : Prop where
  memE : ∀ n, (B.memE n).length = n
  memZ : B.memZ.Ok
  perm : ∀ l, (B.shuffle l).Perm l
  args : BatchArgs B.m B.s B.query B.nDim B.buffer (innerKinds B.kinds) idss B.needed
  filters : ∀ k ∈ B.kinds, k.1.FilterOk
  series : ∀ k ∈ B.kinds, k.1.DataOk (B.s.map (B.π k.2))
  queryOk : ∀ k ∈ B.kinds, k.1.DataOk (B.q.map (B.π k.2))
  calls : AreBatchCalls B.m B.q.length B.s.length B.order BSt.init B.us B.os

end FilteredBatch

/-- A streaming calculation with filters: uninitialised memory, channels, windows, generators, and calls with what they do. -/
structure FilteredStream (α : Type) where
  memE : Nat → List (Fl ℝ)
  memZ : ZN.Mem
  memB : Nat → List Bool
  π : Nat → α → Fl ℝ
  m : Nat
  N : Nat
  M : Option Nat
  nDim : Nat
  buffer : Option Int
  kinds : List (FKind × Nat)
  needed : List Nat
  us : List (MOp α)
  os : List (Streaming.Op ℝ)

namespace FilteredStream
variable (S : FilteredStream α)

/-- Number of subsequences in the query window. -/
def h : Nat := S.M.getD S.N + 1 - S.m
/-- Number of subsequences in the series window. -/
def w : Nat := S.N + 1 - S.m
/-- The trivial match buffer. -/
def b : Int := bufferOf S.m S.M S.buffer
/-- The distances of generator `id`. -/
noncomputable def dist (id : Nat) (a b : List α) : Fl ℝ := filteredDist S.π S.m S.kinds id a b
/-- Tables of values for the calls: near the distances. -/
def Near (vs : List (MOp α × Table ℝ)) : Prop :=
  vs.map Prod.fst = S.us ∧ MSt.init.AllNear S.m S.N S.M S.kinds.length (filteredRel S.kinds) S.dist vs
/-- The same with another relation. -/
def NearOf (Rel : Nat → Fl ℝ → Fl ℝ → Prop) (vs : List (MOp α × Table ℝ)) : Prop :=
  vs.map Prod.fst = S.us ∧ MSt.init.AllNear S.m S.N S.M S.kinds.length Rel S.dist vs
/-- The calls that a consumer of the generators `ids` receives if columns have the values `vs`. -/
noncomputable def events (vs : List (MOp α × Table ℝ)) (ids : List Nat) : List (CEvent ℝ) :=
  MSt.allEventsOf S.m S.N S.M S.b S.dist ids MSt.init vs
/-- The consumers with their generator ids at the end. -/
noncomputable def result (ops : Ops FGen C ℝ) (consumers : List (C × List Nat)) : Except PyErr (List (C × List Nat)) :=
  streamAll ops (S.kinds.map fun k => (k.1.streaming S.memE S.memZ S.memB, k.2)) consumers S.needed S.m S.N
    (S.M.map fun M : Nat => (M : Int)) S.nDim S.buffer S.os

/-- Arguments that the constructors accept, consumers `idss` of existing generators, calls with proper arguments; generators without filter get
finite data, and those with a filter no empty array (`C37_empty_append_wrong`). -/
structure Ok (idss : List (List Nat)) : Prop where
  memE : ∀ n, (S.memE n).length = n
  memZ : S.memZ.Ok
  memB : ∀ n, (S.memB n).length = n
  args : StreamArgs S.m S.N S.M S.nDim S.buffer (innerKinds S.kinds) idss S.needed
  filters : ∀ k ∈ S.kinds, k.1.FilterOk
  calls : AreCallsOf S.nDim S.π S.m S.N S.M MSt.init S.us S.os
  valid : MSt.init.All S.m S.N S.M (fun u op => u.Valid S.m S.M op) S.us
  data : ∀ v, .series v ∈ S.us ∨ .query v ∈ S.us → ∀ k ∈ S.kinds, k.1.AppendOk (v.map (S.π k.2))

end FilteredStream

theorem filteredBatch_feed (μ : GenMode) (B : FilteredBatch α) (ops : Ops FGen C ℝ) (hops : ops.gen = FKind.ops B.memE B.memZ) (consumers cons1 : List (C × List Nat))
    (hB : B.Ok (consumers.map (·.2)))
    (hinit : List.Forall₂ (fun c c' => c'.2 = c.2 ∧ ops.initialise c.1 c.2.length (B.h : Int) (B.w : Int) = .ok c'.1) consumers cons1)
    (hgood : (∃ a c, a < c ∧ .columns a c ∈ B.us) → ∀ k ∈ B.kinds, k.1.Good μ B.m (B.s.map (B.π k.2)) (B.q.map (B.π k.2)))
    (hf : ∀ vs, B.NearOf (modeRel μ B.kinds) vs → ∃ cons2, AllFed ops (B.events vs) cons1 cons2) :
    ∃ vs, B.NearOf (modeRel μ B.kinds) vs ∧ ∃ cons2, B.result ops consumers = .ok cons2 ∧ AllFed ops (B.events vs) cons1 cons2 := by
  obtain ⟨memE, memZ, shuffle, π, m, s, query, nDim, buffer, kinds, needed, us, os⟩ := B
  obtain ⟨hmemE, hmemZ, hsh, ha, hfo, hds, hdq, hc⟩ := hB
  dsimp only at *
  have hm0 := ha.pos
  have hs := ha.series
  have hq := ha.queryLen
  have hql : m ≤ (query.getD s).length := by
    cases query with
    | none => exact hs
    | some q' => exact hq q' rfl
  set M : Option Nat := query.map (·.length) with hM
  set D : Nat → List (Fl ℝ) → List (Fl ℝ) → Fl ℝ := fun i => match kinds[i]? with
    | some k => k.1.dist m
    | none => fun _ _ => .nan with hD
  have hget : ∀ i < (kinds.map fun k => (k.1.prepare memE memZ, k.2)).length, ∃ k, kinds[i]? = some k := by
    intro i hi
    rw [List.length_map] at hi
    exact ⟨_, List.getElem?_eq_getElem hi⟩
  have hDk : ∀ i k, kinds[i]? = some k → D i = k.1.dist m := by
    intro i k h; simp [hD, h]
  have hRk : ∀ i k, kinds[i]? = some k → modeRel μ kinds i = k.1.Rel μ := by
    intro i k h; simp [modeRel, h]
  have hdist : frameDist π ((kinds.map fun k => (k.1.prepare memE memZ, k.2)).map (·.2)) D = filteredDist π m kinds := by
    funext id a b
    unfold frameDist filteredDist
    cases h : kinds[id]? with
    | none => simp [hD, h]
    | some k => simp [hDk _ _ h, h]
  have hlen : (kinds.map fun k => (k.1.prepare memE memZ, k.2)).length = kinds.length := by simp
  have hdst : (fun i => FilteredBatch.dist ⟨memE, memZ, shuffle, π, m, s, query, nDim, buffer, kinds, needed, us, os⟩ i) = filteredDist π m kinds := rfl
  have := batchAll_gen (enc := id) (ops := ops) shuffle hsh (m := m) (D := D) (Rel := modeRel μ kinds)
    (Ok := fun i st op => ∀ k, kinds[i]? = some k → st.Valid m M op ∧ st.Safe op ∧ ((∀ v, op ≠ .series v) ∧ ∀ v, op ≠ .query v) ∧
      ∀ c, op = .column c → k.1.Good μ m st.s st.q)
    (Inv := fun i x st => ∀ k, kinds[i]? = some k → k.1.BatchHolds μ m s.length M x st) (π := π) (nDim := nDim)
    (kinds.map fun k => (k.1.prepare memE memZ, k.2)) s query ?_ ?_ hm0 ha.dims hs hq ?_ ?_ needed buffer ha.bufferLen
    (fun i g _ l d hv k _ => ⟨hv, trivial, by simp, by simp⟩) us
    (fun hcols i g hg l c hcm hsafe k hk => ⟨⟨by simpa using hcm, by simpa using hql⟩, hsafe, by simp, fun _ _ => by
      rw [List.getElem?_map, hk] at hg
      obtain rfl := Option.some.inj hg
      exact hgood hcols k (List.mem_of_getElem? hk)⟩)
    consumers cons1 ?_ ?_ hinit (batchOrder shuffle m s query buffer) ?_ os hc ?_
  · rw [hdist, hlen, bufferOf_batch] at this
    obtain ⟨vs, h1, h2, h3⟩ := this
    exact ⟨vs, ⟨h1, h2⟩, h3⟩
  · intro i hi
    obtain ⟨k, h⟩ := hget i hi
    rw [hDk i k h, hRk i k h, hops]
    have := FKind.batch_nearServes μ memE hmemE memZ hmemZ m s.length M k.1 (hfo k (List.mem_of_getElem? h))
    simpa [h] using this
  · intro i a b
    cases h : kinds[i]? with
    | none => simp [modeRel, h]
    | some k => rw [hDk i k h, hRk i k h]; exact k.1.rel_refl μ m a b
  · intro g hg
    obtain ⟨k, h1, rfl⟩ := List.mem_map.mp hg
    exact ha.chan (k.1.inner, k.2) (List.mem_map_of_mem h1)
  · intro i g hg
    rw [List.getElem?_map] at hg
    obtain ⟨k, h1, rfl⟩ := Option.map_eq_some_iff.mp hg
    have hk := List.mem_of_getElem? h1
    obtain ⟨x, h2, h3⟩ := FKind.batch_prepare μ memE hmemE memZ hmemZ m hm0 (s.map (π k.2)) (query.map (·.map (π k.2))) (by simpa using hs)
      (by intro q' h; obtain ⟨q, e1, rfl⟩ := Option.map_eq_some_iff.mp h; simpa using hq q e1) k.1 (hfo k hk) (hds k hk) (by
        intro q' h
        obtain ⟨q, rfl, rfl⟩ := Option.map_eq_some_iff.mp h
        exact hdq k hk)
    refine ⟨x, ?_, fun k' hk' => ?_⟩
    · simpa using h2
    · rw [h1] at hk'
      cases hk'
      rw [hM]
      simpa [Option.map_map, Function.comp_def, apply_ite, Option.getD_map] using h3
  · refine ⟨ha.nodup, fun id => ?_⟩
    rw [ha.needed]
    constructor
    · rintro ⟨ids, h1, h2⟩
      obtain ⟨c, h3, rfl⟩ := List.mem_map.mp h1
      exact ⟨c, h3, h2⟩
    · rintro ⟨c, h1, h2⟩
      exact ⟨c.2, List.mem_map_of_mem h1, h2⟩
  · intro c hc' id hid
    rw [List.length_map]
    have := ha.ids c.2 (List.mem_map_of_mem hc') id hid
    simpa [innerKinds] using this
  · rw [bufferOf_batch]; rfl
  · rw [hdist, hlen, bufferOf_batch]
    exact fun vs h1 h2 => hf vs ⟨h1, h2⟩

/-- **C78, batch.** An `AnytimeCalculator` with any channels, generators with and without filters and consumers: if the consumers accept the calls of
`FilteredBatch.events` for all tables near the distances, then no call raises, and the consumers are in the state that these calls leave them in for
some tables near the distances. -/
theorem C78_batch_feed (B : FilteredBatch α) (ops : Ops FGen C ℝ) (hops : ops.gen = FKind.ops B.memE B.memZ) (consumers cons1 : List (C × List Nat))
    (hB : B.Ok (consumers.map (·.2)))
    (hinit : List.Forall₂ (fun c c' => c'.2 = c.2 ∧ ops.initialise c.1 c.2.length (B.h : Int) (B.w : Int) = .ok c'.1) consumers cons1)
    (hf : ∀ vs, B.Near vs → ∃ cons2, AllFed ops (B.events vs) cons1 cons2) :
    ∃ vs, B.Near vs ∧ ∃ cons2, B.result ops consumers = .ok cons2 ∧ AllFed ops (B.events vs) cons1 cons2 := by
  have e : B.NearOf (modeRel nearMode B.kinds) = B.Near := by rw [modeRel_near]; rfl
  have := filteredBatch_feed nearMode B ops hops consumers cons1 hB hinit (fun _ k _ => k.1.good_near _ _ _) (by rw [e]; exact hf)
  rwa [e] at this

/-- **C78, batch, in terms of consumers that note their calls.** -/
theorem C78_batch_recorded (B : FilteredBatch α) (idss : List (List Nat)) (hB : B.Ok idss) :
    ∃ vs, B.Near vs ∧ B.result (recorder (FKind.ops B.memE B.memZ)) (idss.map fun ids => ([], ids)) = .ok (idss.map fun ids => (B.events vs ids, ids)) := by
  have hfed : ∀ vs, AllFed (recorder (FKind.ops B.memE B.memZ)) (B.events vs) (idss.map fun ids => ([], ids)) (idss.map fun ids => (B.events vs ids, ids)) := by
    intro vs
    unfold AllFed
    rw [List.forall₂_map_left_iff, List.forall₂_map_right_iff, List.forall₂_same]
    exact fun ids _ => ⟨rfl, by rw [recorder_feed, List.nil_append]⟩
  obtain ⟨vs, h1, cons2, h3, h4⟩ := C78_batch_feed B (recorder (FKind.ops B.memE B.memZ)) rfl
    (idss.map fun ids => ([], ids)) (idss.map fun ids => ([], ids)) (by simpa [List.map_map, Function.comp_def] using hB) (by
      rw [List.forall₂_map_left_iff, List.forall₂_map_right_iff, List.forall₂_same]
      exact fun _ _ => ⟨rfl, rfl⟩) (fun vs _ => ⟨_, hfed vs⟩)
  exact ⟨vs, h1, by rw [h3, h4.unique (hfed vs)]⟩

theorem filteredStream_feed (μ : GenMode) (S : FilteredStream α) (ops : Ops FGen C ℝ) (hops : ops.gen = FKind.ops S.memE S.memZ) (consumers cons1 : List (C × List Nat))
    (hS : S.Ok (consumers.map (·.2)))
    (hinit : List.Forall₂ (fun c c' => c'.2 = c.2 ∧ ops.initialise c.1 c.2.length (S.h : Int) (S.w : Int) = .ok c'.1) consumers cons1)
    (hgood : MSt.init.All S.m S.N S.M (fun u op => ∀ k, op = .columns k → ∀ g ∈ S.kinds,
      g.1.Good μ S.m (lastN S.N (u.s.map (S.π g.2))) (lastN (S.M.getD S.N) (u.q.map (S.π g.2)))) S.us)
    (hf : ∀ vs, S.NearOf (modeRel μ S.kinds) vs → ∃ cons2, AllFed ops (S.events vs) cons1 cons2) :
    ∃ vs, S.NearOf (modeRel μ S.kinds) vs ∧ ∃ cons2, S.result ops consumers = .ok cons2 ∧ AllFed ops (S.events vs) cons1 cons2 := by
  obtain ⟨memE, memZ, memB, π, m, N, M, nDim, buffer, kinds, needed, us, os⟩ := S
  obtain ⟨hmemE, hmemZ, hmemB, ha, hfo, hc, hall, hdata⟩ := hS
  dsimp only at *
  have hm0 := ha.pos
  have hN := ha.series
  have hM := ha.query
  have key : ∀ (i : Nat) k, kinds[i]? = some k → ∃ x, k.1.streaming memE memZ memB m N (M.map fun M : Nat => (M : Int)) = .ok x ∧
      k.1.StreamHolds μ m N M x ⟨[], [], none⟩ := fun i k h =>
    FKind.stream_prepare μ memE hmemE memZ hmemZ memB hmemB m N M hm0 hN hM k.1 (hfo k (List.mem_of_getElem? h))
      (ha.scale (k.1.inner, k.2) (List.mem_map_of_mem (List.mem_of_getElem? h)))
  set D : Nat → List (Fl ℝ) → List (Fl ℝ) → Fl ℝ := fun i => match kinds[i]? with
    | some k => k.1.dist m
    | none => fun _ _ => .nan with hD
  have hget : ∀ i < (kinds.map fun k => (k.1.streaming memE memZ memB, k.2)).length, ∃ k, kinds[i]? = some k := by
    intro i hi
    rw [List.length_map] at hi
    exact ⟨_, List.getElem?_eq_getElem hi⟩
  have hDk : ∀ i k, kinds[i]? = some k → D i = k.1.dist m := by
    intro i k h; simp [hD, h]
  have hRk : ∀ i k, kinds[i]? = some k → modeRel μ kinds i = k.1.Rel μ := by
    intro i k h; simp [modeRel, h]
  have hdist : frameDist π ((kinds.map fun k => (k.1.streaming memE memZ memB, k.2)).map (·.2)) D = filteredDist π m kinds := by
    funext id a b
    unfold frameDist filteredDist
    cases h : kinds[id]? with
    | none => simp [hD, h]
    | some k => simp [hDk _ _ h, h]
  have hlen : (kinds.map fun k => (k.1.streaming memE memZ memB, k.2)).length = kinds.length := by simp
  have := streamAll_gen (enc := id) (ops := ops) (D := D) (Rel := modeRel μ kinds)
    (Ok := fun i st op => ∀ k, kinds[i]? = some k → st.Valid m M op ∧ (∀ v, op = .series v ∨ op = .query v → k.1.AppendOk v) ∧
      (∀ c : Nat, op = .column c → ∀ t e, st.last = some (t, e) → t < (c : Int)) ∧ ∀ c, op = .column c → k.1.Good μ m st.s st.q)
    (Inv := fun i x st => ∀ k, kinds[i]? = some k → k.1.StreamHolds μ m N M x st) (π := π) (nDim := nDim)
    (kinds.map fun k => (k.1.streaming memE memZ memB, k.2)) ?_ ?_ hm0 hN hM ?_ ?_ needed
    (fun i s q => ∀ k, kinds[i]? = some k → k.1.Good μ m s q) (fun i v => ∀ k, kinds[i]? = some k → k.1.AppendOk v) ?_ ?_ ?_ buffer ha.buffer consumers cons1 ?_ ?_ hinit us os hc ?_ ?_
  · rw [hdist, hlen] at this
    obtain ⟨vs, h1, h2, h3⟩ := this
    exact ⟨vs, ⟨h1, h2⟩, h3⟩
  · intro i hi
    obtain ⟨k, h⟩ := hget i hi
    rw [hDk i k h, hRk i k h, hops]
    have := FKind.stream_nearServes μ memE hmemE memZ hmemZ m N M k.1 (hfo k (List.mem_of_getElem? h))
    simpa [h] using this
  · intro i a b
    cases h : kinds[i]? with
    | none => simp [modeRel, h]
    | some k => rw [hDk i k h, hRk i k h]; exact k.1.rel_refl μ m a b
  · intro g hg
    obtain ⟨k, h1, rfl⟩ := List.mem_map.mp hg
    exact ha.chan (k.1.inner, k.2) (List.mem_map_of_mem h1)
  · intro i g hg
    rw [List.getElem?_map] at hg
    obtain ⟨k, h1, rfl⟩ := Option.map_eq_some_iff.mp hg
    obtain ⟨x, h2, h3⟩ := key i k h1
    exact ⟨x, h2, fun k' hk' => by rw [h1] at hk'; cases hk'; exact h3⟩
  · intro i _ w x hx k hk
    refine ⟨trivial, fun v hv => ?_, by simp, by simp⟩
    rcases hv with hv | hv
    · cases hv; exact hx k hk
    · cases hv
  · intro hne i _ w x hx k hk
    refine ⟨hne, fun v hv => ?_, by simp, by simp⟩
    rcases hv with hv | hv
    · cases hv
    · cases hv; exact hx k hk
  · intro i _ s q l c h0 h1 h2 h3 k hk
    refine ⟨⟨h1, h2⟩, by simp, fun c' hc' => ?_, fun _ _ => h0 k hk⟩
    cases hc'
    exact h3
  · refine ⟨ha.nodup, fun id => ?_⟩
    rw [ha.needed]
    constructor
    · rintro ⟨ids, h1, h2⟩
      obtain ⟨c, h3, rfl⟩ := List.mem_map.mp h1
      exact ⟨c, h3, h2⟩
    · rintro ⟨c, h1, h2⟩
      exact ⟨c.2, List.mem_map_of_mem h1, h2⟩
  · intro c hc' id hid
    rw [List.length_map]
    have := ha.ids c.2 (List.mem_map_of_mem hc') id hid
    simpa [innerKinds] using this
  · clear hc hf hinit
    revert hall hdata hgood
    generalize (MSt.init : MSt α) = u
    induction us generalizing u with
    | nil => intro _ _ _; trivial
    | cons x us ih =>
      intro hgood h hdata
      refine ⟨⟨h.1, fun k' hk' i g hg k hk => ?_, fun v hv i g hg k hk => ?_⟩, ih _ hgood.2 h.2 (fun v hv => hdata v (by
        rcases hv with hv | hv
        · exact .inl (List.mem_cons_of_mem _ hv)
        · exact .inr (List.mem_cons_of_mem _ hv)))⟩
      · rw [List.getElem?_map, hk] at hg
        obtain rfl := Option.some.inj hg
        exact hgood.1 k' hk' k (List.mem_of_getElem? hk)
      rw [List.getElem?_map, hk] at hg
      obtain rfl := Option.some.inj hg
      exact hdata v (by
        rcases hv with rfl | rfl
        · exact .inl List.mem_cons_self
        · exact .inr List.mem_cons_self) k (List.mem_of_getElem? hk)
  · rw [hdist, hlen]
    exact fun vs h1 h2 => hf vs ⟨h1, h2⟩

/-- **C78, streaming.** A `StreamingCalculator` with any channels, generators with and without filters and consumers: if the consumers accept the calls
of `FilteredStream.events` for all tables near the distances, then no call raises, and the consumers are in the state that these calls leave them in for
some tables near the distances. -/
theorem C78_stream_feed (S : FilteredStream α) (ops : Ops FGen C ℝ) (hops : ops.gen = FKind.ops S.memE S.memZ) (consumers cons1 : List (C × List Nat))
    (hS : S.Ok (consumers.map (·.2)))
    (hinit : List.Forall₂ (fun c c' => c'.2 = c.2 ∧ ops.initialise c.1 c.2.length (S.h : Int) (S.w : Int) = .ok c'.1) consumers cons1)
    (hf : ∀ vs, S.Near vs → ∃ cons2, AllFed ops (S.events vs) cons1 cons2) :
    ∃ vs, S.Near vs ∧ ∃ cons2, S.result ops consumers = .ok cons2 ∧ AllFed ops (S.events vs) cons1 cons2 := by
  have e : S.NearOf (modeRel nearMode S.kinds) = S.Near := by rw [modeRel_near]; rfl
  have := filteredStream_feed nearMode S ops hops consumers cons1 hS hinit ?_ (by rw [e]; exact hf)
  · rwa [e] at this
  · generalize (MSt.init : MSt α) = u
    generalize S.us = us
    induction us generalizing u with
    | nil => trivial
    | cons x us ih => exact ⟨fun _ _ k _ => k.1.good_near _ _ _, ih _⟩

/-- **C78, streaming, in terms of consumers that note their calls.** -/
theorem C78_stream_recorded (S : FilteredStream α) (idss : List (List Nat)) (hS : S.Ok idss) :
    ∃ vs, S.Near vs ∧ S.result (recorder (FKind.ops S.memE S.memZ)) (idss.map fun ids => ([], ids)) = .ok (idss.map fun ids => (S.events vs ids, ids)) := by
  have hfed : ∀ vs, AllFed (recorder (FKind.ops S.memE S.memZ)) (S.events vs) (idss.map fun ids => ([], ids)) (idss.map fun ids => (S.events vs ids, ids)) := by
    intro vs
    unfold AllFed
    rw [List.forall₂_map_left_iff, List.forall₂_map_right_iff, List.forall₂_same]
    exact fun ids _ => ⟨rfl, by rw [recorder_feed, List.nil_append]⟩
  obtain ⟨vs, h1, cons2, h3, h4⟩ := C78_stream_feed S (recorder (FKind.ops S.memE S.memZ)) rfl
    (idss.map fun ids => ([], ids)) (idss.map fun ids => ([], ids)) (by simpa [List.map_map, Function.comp_def] using hS) (by
      rw [List.forall₂_map_left_iff, List.forall₂_map_right_iff, List.forall₂_same]
      exact fun _ _ => ⟨rfl, rfl⟩) (fun vs _ => ⟨_, hfed vs⟩)
  exact ⟨vs, h1, by rw [h3, h4.unique (hfed vs)]⟩

/-! ### Concrete cases -/

/-- Under a filter a pair with a NaN has the distance `+inf`, other pairs that of the generator. -/
example : (FKind.filtered (fun x => !x.isFinite) 2 (.euclidean 2)).dist 2 [.fin 1, .nan] [.fin 1, .fin 2] = .pinf ∧
    (FKind.filtered (fun x => !x.isFinite) 2 (.euclidean 2)).dist 2 [.fin 4, .fin 6] [.fin 1, .fin 2] = .fin 5 := by
  constructor
  · simp [FKind.dist, filterDist, Fl.isFinite]
  · simp [FKind.dist, filterDist, Fl.isFinite, numOf, GenKind.dist, sqd, Finset.sum_range_succ, seqOf]
    rw [show ((4 - 1) ^ 2 + (6 - 2) ^ 2 : ℝ) = 5 ^ 2 by norm_num, Real.sqrt_sq (by norm_num)]

/-- Channel 0 is finite; channel 1 contains NaN and infinities. -/
noncomputable def exHoles : List (ℝ × Fl ℝ) := [(1, .fin 2), (5, .fin 0), (2, .nan), (8, .fin 1), (3, .fin 3), (4, .pinf), (4, .fin 6), (0, .fin 1)]

def holeChan (ch : Nat) (x : ℝ × Fl ℝ) : Fl ℝ := if ch = 0 then .fin x.1 else x.2

/-- A filtered Euclidean generator on channel 1, a z-normalised one without filter on channel 0 and a filtered one on channel 1. -/
noncomputable def exFKinds : List (FKind × Nat) :=
  [(.filtered (fun x => !x.isFinite) 2 (.euclidean 2), 1), (.plain (.znorm 0 (3 / 2)), 0), (.filtered (fun x => !x.isFinite) 1 (.znorm (1 / 10) 1), 1)]

theorem exFKinds_ok : ∀ k ∈ exFKinds, k.1.FilterOk := by
  intro k hk
  simp only [exFKinds, List.mem_cons, List.not_mem_nil, or_false] at hk
  rcases hk with rfl | rfl | rfl
  · exact ⟨Filter.isNotFinite_pointwise.2, by norm_num, by norm_num⟩
  · trivial
  · exact ⟨Filter.isNotFinite_pointwise.2, by norm_num, by norm_num⟩

theorem exFKinds_data (v : List (ℝ × Fl ℝ)) : ∀ k ∈ exFKinds, k.1.DataOk (v.map (holeChan k.2)) := by
  intro k hk
  simp only [exFKinds, List.mem_cons, List.not_mem_nil, or_false] at hk
  rcases hk with rfl | rfl | rfl
  · trivial
  · intro x hx
    obtain ⟨y, -, rfl⟩ := List.mem_map.mp hx
    rfl
  · trivial

theorem exFKinds_append (v : List (ℝ × Fl ℝ)) (hv : v ≠ []) : ∀ k ∈ exFKinds, k.1.AppendOk (v.map (holeChan k.2)) := by
  intro k hk
  simp only [exFKinds, List.mem_cons, List.not_mem_nil, or_false] at hk
  rcases hk with rfl | rfl | rfl
  · simpa [FKind.AppendOk] using hv
  · intro x hx
    obtain ⟨y, -, rfl⟩ := List.mem_map.mp hx
    rfl
  · simpa [FKind.AppendOk] using hv

/-- The calls of `exBatch` on the first five frames. -/
noncomputable def exFilteredBatch : FilteredBatch (ℝ × Fl ℝ) where
  memE := fun n => List.replicate n .nan
  memZ := ZN.zeroMem
  shuffle := List.reverse
  π := holeChan
  m := 2
  s := exHoles.take 5
  query := none
  nDim := 2
  buffer := some 0
  kinds := exFKinds
  needed := [2, 0, 1]
  us := [.diagonals 2, .columns 1 2, .diagonals 3]
  os := [.diagonals (fun n => n == 2) (.float (.fin 1)), .columns (fun _ => false) (some (.int 1)) (.int 2), .diagonals (fun _ => false) (.int 100)]

theorem exFilteredBatch_ok {idss : List (List Nat)} (h : ∀ ids ∈ idss, ∀ id ∈ ids, id < 3) (h0 : ∀ id < 3, ∃ ids ∈ idss, id ∈ ids) : exFilteredBatch.Ok idss where
  memE := fun n => List.length_replicate
  memZ := ZN.zeroMem_ok
  perm := List.reverse_perm
  args := by
    refine ⟨by decide, by simp [exFilteredBatch, exHoles], by simp [exFilteredBatch], by decide, by simp [exFilteredBatch, exHoles], ?_, ?_, by decide, ?_⟩
    · simp [exFilteredBatch, innerKinds, exFKinds]
    · simpa [exFilteredBatch, innerKinds, exFKinds] using h
    · intro id
      have : id ∈ exFilteredBatch.needed ↔ id < 3 := by simp [exFilteredBatch]; omega
      rw [this]
      exact ⟨h0 id, fun ⟨ids, h1, h2⟩ => h ids h1 id h2⟩
  filters := exFKinds_ok
  series := exFKinds_data _
  queryOk := exFKinds_data _
  calls := exBatch_calls

example : ∃ vs, exFilteredBatch.Near vs ∧
    exFilteredBatch.result (recorder (FKind.ops exFilteredBatch.memE exFilteredBatch.memZ)) [([], [0, 2]), ([], [1])] =
      .ok [(exFilteredBatch.events vs [0, 2], [0, 2]), (exFilteredBatch.events vs [1], [1])] :=
  C78_batch_recorded exFilteredBatch [[0, 2], [1]] (exFilteredBatch_ok (by simp) (by intro id hid; simp; omega))

/-- The calls of `exFrames` on data with NaN and infinities; the windows hold 4 and 3 frames. -/
noncomputable def exFilteredStream : FilteredStream (ℝ × Fl ℝ) where
  memE := fun n => List.replicate n .nan
  memZ := ZN.zeroMem
  memB := fun n => List.replicate n true
  π := holeChan
  m := 2
  N := 4
  M := some 3
  nDim := 2
  buffer := none
  kinds := exFKinds
  needed := [2, 0, 1]
  us := [.columns 1, .series (exHoles.take 5), .query (exHoles.drop 5), .columns 1, .series [(9, .ninf)], .columns 3, .query [(0, .fin 5)], .columns 3]
  os := [.columns (fun _ => false) (.float (.fin (1 / 3))),
   .series (.d2 [[.fin 1, .fin 5, .fin 2, .fin 8, .fin 3], [.fin 2, .fin 0, .nan, .fin 1, .fin 3]] 5),
   .query (.d2 [[.fin 4, .fin 4, .fin 0], [.pinf, .fin 6, .fin 1]] 3),
   -- interrupted at column 1
   .columns (fun c => c == 1) (.float (.fin 1)), .series (.d1 [.fin 9, .ninf]), .columns (fun _ => false) (.int 3),
   .query (.d1 [.fin 0, .fin 5]), .columns (fun _ => true) (.int 3)]

theorem exFilteredStream_ok {idss : List (List Nat)} (h : ∀ ids ∈ idss, ∀ id ∈ ids, id < 3) (h0 : ∀ id < 3, ∃ ids ∈ idss, id ∈ ids) : exFilteredStream.Ok idss where
  memE := fun n => List.length_replicate
  memZ := ZN.zeroMem_ok
  memB := fun n => List.length_replicate
  args := by
    refine ⟨by decide, by decide, by simp [exFilteredStream], by simp [exFilteredStream], ?_, ?_, ?_, by decide, ?_⟩
    · simp [exFilteredStream, innerKinds, exFKinds, FKind.inner, GenKind.ScaleOk]; norm_num
    · simp [exFilteredStream, innerKinds, exFKinds]
    · simpa [exFilteredStream, innerKinds, exFKinds] using h
    · intro id
      have : id ∈ exFilteredStream.needed ↔ id < 3 := by simp [exFilteredStream]; omega
      rw [this]
      exact ⟨h0 id, fun ⟨ids, h1, h2⟩ => h ids h1 id h2⟩
  filters := exFKinds_ok
  calls := by
    show AreCallsOf 2 holeChan 2 4 (some 3) MSt.init
      [.columns 1, .series (exHoles.take 5), .query (exHoles.drop 5), .columns 1, .series [(9, .ninf)], .columns 3, .query [(0, .fin 5)], .columns 3] _
    refine ⟨⟨1, .inr ⟨1 / 3, rfl, by norm_num, by norm_num, by norm_num⟩, by simp, .inl rfl⟩, .inl ?_, .inl ?_,
      ⟨3, .inr ⟨1, rfl, by norm_num, by norm_num, by norm_num⟩, ?_, .inr ⟨by simp [MSt.step, MSt.init, lastN, exHoles], by omega, rfl⟩⟩, .inr ⟨(9, .ninf), rfl, ?_⟩,
      ⟨3, .inl rfl, by simp, .inl rfl⟩, .inr ⟨(0, .fin 5), rfl, ?_⟩, ⟨3, .inl rfl, ?_, .inl rfl⟩, trivial⟩
    · simp [exHoles, holeChan, List.range_succ]
    · simp [exHoles, holeChan, List.range_succ]
    · intro c _ h; simp; omega
    · simp [holeChan, List.range_succ]
    · simp [holeChan, List.range_succ]
    · intro c h1 h2
      simp [MSt.step, MSt.init, lastN, exHoles] at h1
      omega
  valid := by
    refine ⟨?_, ?_, ?_, ?_, ?_, ?_, ?_, ?_, trivial⟩ <;> simp [MSt.Valid, MSt.step, MSt.init, exFilteredStream, exHoles]
  data := by
    intro v hv
    refine exFKinds_append v ?_
    simp [exFilteredStream] at hv
    rcases hv with (rfl | rfl) | (rfl | rfl) <;> simp [exHoles]

example : ∃ vs, exFilteredStream.Near vs ∧
    exFilteredStream.result (recorder (FKind.ops exFilteredStream.memE exFilteredStream.memZ)) [([], [0, 2]), ([], [1])] =
      .ok [(exFilteredStream.events vs [0, 2], [0, 2]), (exFilteredStream.events vs [1], [1])] :=
  C78_stream_recorded exFilteredStream [[0, 2], [1]] (exFilteredStream_ok (by simp) (by intro id hid; simp; omega))

/-- The data of `exFilteredBatch` with its z-normalised generators and any calls. -/
noncomputable def exFilteredZ (us : List BOp) (os : List Anytime.Op) : FilteredBatch (ℝ × Fl ℝ) := {exFilteredBatch with kinds := exFKinds.drop 1, needed := [1, 0], us := us, os := os}

theorem exFilteredZ_ok {us : List BOp} {os : List Anytime.Op} (hc : AreBatchCalls 2 5 5 [3, 2, 1] BSt.init us os) {idss : List (List Nat)} (h : ∀ ids ∈ idss, ∀ id ∈ ids, id < 2)
    (h0 : ∀ id < 2, ∃ ids ∈ idss, id ∈ ids) : (exFilteredZ us os).Ok idss where
  memE := fun n => List.length_replicate
  memZ := ZN.zeroMem_ok
  perm := List.reverse_perm
  args := by
    refine ⟨by simp [exFilteredZ, exFilteredBatch], by simp [exFilteredZ, exFilteredBatch, exHoles], by simp [exFilteredZ, exFilteredBatch], by simp [exFilteredZ, exFilteredBatch],
      by simp [exFilteredZ, exFilteredBatch, exHoles], ?_, ?_, by simp [exFilteredZ], ?_⟩
    · simp [exFilteredZ, exFilteredBatch, innerKinds, exFKinds]
    · simpa [exFilteredZ, innerKinds, exFKinds] using h
    · intro id
      have : id ∈ (exFilteredZ us os).needed ↔ id < 2 := by simp [exFilteredZ]; omega
      rw [this]
      exact ⟨h0 id, fun ⟨ids, h1, h2⟩ => h ids h1 id h2⟩
  filters := fun k hk => exFKinds_ok k (List.mem_of_mem_drop hk)
  series := fun k hk => exFKinds_data _ k (List.mem_of_mem_drop hk)
  queryOk := fun k hk => exFKinds_data _ k (List.mem_of_mem_drop hk)
  calls := hc

theorem exFilteredZ_znorm (us : List BOp) (os : List Anytime.Op) : ∀ k ∈ (exFilteredZ us os).kinds, ∃ noise scale, k.1.inner = .znorm noise scale := by
  simp [exFilteredZ, exFKinds, FKind.inner]

/-- Only column 1. -/
theorem exColumn_calls : AreBatchCalls 2 5 5 [3, 2, 1] BSt.init [.columns 1 2] [.columns (fun _ => false) (some (.int 1)) (.int 2)] :=
  ⟨⟨1, 2, .inr ⟨_, rfl, .inl rfl⟩, by decide, .inl rfl, by simp, .inl (by decide)⟩, trivial⟩

/-- `C78_batch_feed` with consumers that note their calls. -/
example := C78_batch_feed exFilteredBatch (recorder (FKind.ops exFilteredBatch.memE exFilteredBatch.memZ)) rfl [([], [0, 2]), ([], [1])] [([], [0, 2]), ([], [1])]
  (exFilteredBatch_ok (by simp) (by intro id hid; simp; omega)) (.cons ⟨rfl, rfl⟩ (.cons ⟨rfl, rfl⟩ .nil))
  (fun vs _ => ⟨[(exFilteredBatch.events vs [0, 2], [0, 2]), (exFilteredBatch.events vs [1], [1])], .cons ⟨rfl, recorder_feed _ _ _⟩ (.cons ⟨rfl, recorder_feed _ _ _⟩ .nil)⟩)

/-- `C78_stream_feed` with consumers that note their calls. -/
example := C78_stream_feed exFilteredStream (recorder (FKind.ops exFilteredStream.memE exFilteredStream.memZ)) rfl [([], [0, 2]), ([], [1])] [([], [0, 2]), ([], [1])]
  (exFilteredStream_ok (by simp) (by intro id hid; simp; omega)) (.cons ⟨rfl, rfl⟩ (.cons ⟨rfl, rfl⟩ .nil))
  (fun vs _ => ⟨[(exFilteredStream.events vs [0, 2], [0, 2]), (exFilteredStream.events vs [1], [1])], .cons ⟨rfl, recorder_feed _ _ _⟩ (.cons ⟨rfl, recorder_feed _ _ _⟩ .nil)⟩)

end Verif
