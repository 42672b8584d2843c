import Verif.Props.BatchProfile
import Verif.Props.StreamProfile
import Verif.Model.Consumers

/-!
Whole calculations, with everything but the consumers, and the transfer of what a single consumer does to all consumers of a calculation.
-/

namespace Verif
open Spec
variable {α C : Type}

theorem zip_cases {cs : List (C × List Nat)} {c1 : List (C × C)} (I F : C → List Nat → C → Prop) (R : C × List Nat → C → Prop) (hlen : c1.length = cs.length)
    (h : ∀ (i : Nat) (c : C × List Nat) (x : C × C), cs[i]? = some c → c1[i]? = some x → I c.1 c.2 x.1 ∧ F x.1 c.2 x.2 ∧ R c x.2) :
    List.Forall₂ (fun c c' => c'.2 = c.2 ∧ I c.1 c.2 c'.1) cs (List.zipWith (fun c x => (x.1, c.2)) cs c1) ∧
    List.Forall₂ (fun c c' => c'.2 = c.2 ∧ F c.1 c.2 c'.1) (List.zipWith (fun c x => (x.1, c.2)) cs c1) (List.zipWith (fun c x => (x.2, c.2)) cs c1) ∧
    List.Forall₂ (fun c c' => c'.2 = c.2 ∧ R c c'.1) cs (List.zipWith (fun c x => (x.2, c.2)) cs c1) := by
  induction cs generalizing c1 with
  | nil =>
    cases c1 with
    | nil => simp
    | cons x c1 => simp at hlen
  | cons c cs ih =>
    cases c1 with
    | nil => simp at hlen
    | cons x c1 =>
      obtain ⟨h1, h2, h3⟩ := ih (c1 := c1) (by simpa using hlen) fun i c x hc hx => h (i + 1) c x (by simpa using hc) (by simpa using hx)
      obtain ⟨g1, g2, g3⟩ := h 0 c x rfl rfl
      exact ⟨.cons ⟨rfl, g1⟩ h1, .cons ⟨rfl, g2⟩ h2, .cons ⟨rfl, g3⟩ h3⟩

/-- A batch calculation: uninitialised memory, shuffle, channels, data, generators, and calls with what they calculate. -/
structure BatchCase (α : Type) where
  memE : Nat → List (Fl ℝ)
  memZ : ZN.Mem
  shuffle : List Int → List Int
  π : Nat → α → ℝ
  m : Nat
  s : List α
  query : Option (List α)
  nDim : Nat
  buffer : Option Int
  kinds : List (GenKind × Nat)
  needed : List Nat
  us : List BOp
  os : List Anytime.Op

namespace BatchCase
variable (B : BatchCase α)

/-- The query, the series itself in a self-join. -/
def q : List α := B.query.getD B.s
/-- Number of subsequences of the query. -/
def h : Nat := B.q.length + 1 - B.m
/-- Number of subsequences of the series. -/
def w : Nat := B.s.length + 1 - B.m
/-- The trivial match buffer. -/
def b : Int := batchBuffer B.m B.query B.buffer
/-- The order of the diagonals. -/
def order : List Int := batchOrder B.shuffle B.m B.s B.query B.buffer
/-- Was the distance of the pair (`r`, `c`) delivered? -/
def done (r c : Nat) : Prop := BSt.init.covered B.query.isNone B.b B.order B.us r c
/-- The distance of the pair (`r`, `c`) by generator `id`. -/
noncomputable def value (id r c : Nat) : ℝ := streamValue B.π B.m B.kinds id ((B.s.drop c).take B.m) ((B.q.drop r).take B.m)
/-- The same with `+inf` in the trivial match band. -/
noncomputable def masked (id r c : Nat) : Fl ℝ := if (r : Int) - c ≤ B.b ∧ (c : Int) - r ≤ B.b then .pinf else .fin (B.value id r c)
/-- The calls that a consumer of the generators `ids` receives. -/
noncomputable def events (ids : List Nat) : List (CEvent ℝ) :=
  BSt.allEvents B.m B.query.isNone B.b B.order (streamDist B.π B.m B.kinds) B.s B.q ids BSt.init B.us
/-- The deliveries for a consumer of generator `id`. -/
noncomputable def dels (id : Nat) : List (Delivery ℝ) := allDeliveries B.m B.query.isNone B.b B.order (streamDist B.π B.m B.kinds id) B.s B.q BSt.init B.us
/-- The consumers with their generator ids at the end. -/
noncomputable def result (ops : GenOps (ColCache ℝ ⊕ ZN) ℝ → Ops (ColCache ℝ ⊕ ZN) C ℝ) (consumers : List (C × List Nat)) : Except PyErr (List (C × List Nat)) :=
  batchAll (ops (GenKind.ops B.memE B.memZ)) B.shuffle (B.kinds.map fun k => (k.1.prepare B.memE B.memZ, k.2)) consumers B.needed B.m
    (frameRows B.π B.nDim B.s) (B.query.map (frameRows B.π B.nDim)) B.buffer B.os

/-- Arguments that the constructors accept, consumers `idss` of existing generators, calls with proper arguments; any data. -/
structure Any (idss : List (List Nat)) : Prop where
  memE : ∀ n, (B.memE n).length = n
  memZ : B.memZ.Ok
  perm : ∀ l, (B.shuffle l).Perm l
  args : BatchArgs B.m B.s B.query B.nDim B.buffer B.kinds idss B.needed
  calls : AreBatchCalls B.m B.q.length B.s.length B.order BSt.init B.us B.os

/-- The same and, for Euclidean generators, if columns are calculated, no two different subsequences at squared distance below `1e-15`
(`C66_euclidean_nan`). -/
structure Ok (idss : List (List Nat)) : Prop extends B.Any idss where
  good : (∃ a c, a < c ∧ .columns a c ∈ B.us) → ∀ g ∈ B.kinds, g.1.Good B.m (B.s.map (B.π g.2)) (B.q.map (B.π g.2))

variable {B}

theorem events_single (id : Nat) : B.events [id] = (B.dels id).map Delivery.event := (allDeliveries_events _ _ _ _ _ _ _ _ _ _).symm

theorem Any.id_lt {idss : List (List Nat)} (h : B.Any idss) {ids : List Nat} (h1 : ids ∈ idss) {id : Nat} (h2 : id ∈ ids) : id < B.kinds.length :=
  h.args.ids ids h1 id h2

theorem Any.h_pos {idss : List (List Nat)} (h : B.Any idss) : 0 < B.h := by
  have := batchQuery_le h.args
  unfold BatchCase.h BatchCase.q
  omega

theorem Any.w_pos {idss : List (List Nat)} (h : B.Any idss) : 0 < B.w := by
  have := h.args.series
  unfold BatchCase.w
  omega

theorem Any.order_ok {idss : List (List Nat)} (h : B.Any idss) : OrderOk B.m B.query.isNone B.b B.order B.s.length B.q.length ∧ B.order.Nodup :=
  have := batchOrder_ok h.perm h.args.series (fun e => (h.args.bufferLen e).1) (batchQuery_le h.args)
  ⟨this.1, this.2.1⟩

theorem Any.cells {idss : List (List Nat)} (h : B.Any idss) {id : Nat} (hid : id < B.kinds.length) : CellsAre (B.masked id) B.h B.w B.done (B.dels id) := by
  have e : B.masked id = pairValue (streamDist B.π B.m B.kinds id) B.m (batchBuffer B.m B.query B.buffer) B.s (B.query.getD B.s) := by
    funext r c
    unfold BatchCase.masked pairValue BatchCase.value
    rw [streamDist_value B.π B.m B.kinds id hid]
    rfl
  rw [e]
  exact batch_cells h.perm h.args h.calls id

theorem Any.done_far {idss : List (List Nat)} (h : B.Any idss) {r c : Nat} (hd : B.done r c) : ¬ ((r : Int) - c ≤ B.b ∧ (c : Int) - r ≤ B.b) :=
  covered_far (batchBuffer_ge h.args).1 h.order_ok.1 (batchBuffer_ge h.args).2 hd

theorem Any.masked_done {idss : List (List Nat)} (h : B.Any idss) {id r c : Nat} (hd : B.done r c) : B.masked id r c = .fin (B.value id r c) := by
  unfold BatchCase.masked
  rw [if_neg (h.done_far hd)]

/-- What every single consumer does, all consumers do. -/
theorem consumers (ops : GenOps (ColCache ℝ ⊕ ZN) ℝ → Ops (ColCache ℝ ⊕ ZN) C ℝ) (hops : ∀ g, (ops g).gen = g) (cs : List (C × List Nat))
    (hB : B.Ok (cs.map (·.2))) (Post : C × List Nat → C → Prop)
    (hfed : ∀ c ∈ cs, ∃ p0 p', (ops (GenKind.ops B.memE B.memZ)).initialise c.1 c.2.length (B.h : Int) (B.w : Int) = .ok p0 ∧
      feed (ops (GenKind.ops B.memE B.memZ)) p0 (B.events c.2) = .ok p' ∧ Post c p') :
    ∃ cons', B.result ops cs = .ok cons' ∧ List.Forall₂ (fun c c' => c'.2 = c.2 ∧ Post c c'.1) cs cons' := by
  classical
  obtain ⟨c1, hc1, hx1⟩ := exists_list (fun _ (c : C × List Nat) (x : C × C) =>
    (ops (GenKind.ops B.memE B.memZ)).initialise c.1 c.2.length (B.h : Int) (B.w : Int) = .ok x.1 ∧
      feed (ops (GenKind.ops B.memE B.memZ)) x.1 (B.events c.2) = .ok x.2 ∧ Post c x.2) cs (by
      intro i c hc
      obtain ⟨p0, p', h⟩ := hfed c (List.mem_of_getElem? hc)
      exact ⟨(p0, p'), h⟩)
  obtain ⟨l1, l2, l3⟩ := zip_cases (fun c ids p => (ops (GenKind.ops B.memE B.memZ)).initialise c ids.length (B.h : Int) (B.w : Int) = .ok p)
    (fun p ids p' => feed (ops (GenKind.ops B.memE B.memZ)) p (B.events ids) = .ok p') Post hc1 hx1
  refine ⟨List.zipWith (fun c x => (x.2, c.2)) cs c1, ?_, l3⟩
  exact C66_batch_feed_partial B.memE hB.memE B.memZ hB.memZ (ops (GenKind.ops B.memE B.memZ)) (hops _) B.shuffle hB.perm B.π B.m B.s B.query B.nDim B.buffer B.kinds
    cs (List.zipWith (fun (c : C × List Nat) (x : C × C) => (x.1, c.2)) cs c1) _ B.needed hB.args l1 B.us B.os hB.calls hB.good l2

/-- The same for consumers `f x` made from arguments `x`. -/
theorem consumersOf {ι : Type} (ops : GenOps (ColCache ℝ ⊕ ZN) ℝ → Ops (ColCache ℝ ⊕ ZN) C ℝ) (hops : ∀ g, (ops g).gen = g) (xs : List ι) (f : ι → C × List Nat)
    (hB : B.Ok (xs.map fun x => (f x).2)) (Post : ι → C → Prop)
    (hfed : ∀ x ∈ xs, ∃ p0 p', (ops (GenKind.ops B.memE B.memZ)).initialise (f x).1 (f x).2.length (B.h : Int) (B.w : Int) = .ok p0 ∧
      feed (ops (GenKind.ops B.memE B.memZ)) p0 (B.events (f x).2) = .ok p' ∧ Post x p') :
    ∃ cons', B.result ops (xs.map f) = .ok cons' ∧ List.Forall₂ (fun x c' => c'.2 = (f x).2 ∧ Post x c'.1) xs cons' := by
  obtain ⟨cons', h1, h2⟩ := BatchCase.consumers (B := B) ops hops (xs.map f) (by simpa [List.map_map, Function.comp_def] using hB)
    (fun c p => ∀ x ∈ xs, f x = c → Post x p) (by
      intro c hc
      obtain ⟨x, hx, rfl⟩ := List.mem_map.mp hc
      obtain ⟨p0, p', e1, e2, -⟩ := hfed x hx
      refine ⟨p0, p', e1, e2, fun y hy hyx => ?_⟩
      obtain ⟨q0, q', g1, g2, g3⟩ := hfed y hy
      rw [hyx, e1] at g1
      cases g1
      rw [hyx, e2] at g2
      cases g2
      exact g3)
  refine ⟨cons', h1, ?_⟩
  rw [List.forall₂_map_left_iff] at h2
  rw [List.forall₂_iff_get] at h2 ⊢
  refine ⟨h2.1, fun i hi hi' => ?_⟩
  have := h2.2 i hi hi'
  exact ⟨this.1, this.2 _ (List.get_mem _ _) rfl⟩

end BatchCase

/-- A streaming calculation: uninitialised memory, channels, windows, generators, and calls with what they do. -/
structure StreamCase (α : Type) where
  memE : Nat → List (Fl ℝ)
  memZ : ZN.Mem
  π : Nat → α → ℝ
  m : Nat
  N : Nat
  M : Option Nat
  nDim : Nat
  buffer : Option Int
  kinds : List (GenKind × Nat)
  needed : List Nat
  us : List (MOp α)
  os : List (Streaming.Op ℝ)

namespace StreamCase
variable (S : StreamCase α)

/-- Number of subsequences in the query window. -/
def h : Nat := S.M.getD S.N + 1 - S.m
/-- Number of subsequences in the series window. -/
def w : Nat := S.N + 1 - S.m
/-- The trivial match buffer. -/
def b : Int := bufferOf S.m S.M S.buffer
/-- The streams and the calculated pairs at the end. -/
def last : MSt α := MSt.init.run S.m S.N S.M S.us
/-- The value of the pair (`r`, `c`) of positions in the streams by generator `id`: `+inf` in the trivial match band. -/
noncomputable def value (id r c : Nat) : Fl ℝ := S.last.cell (streamDist S.π S.m S.kinds id) S.m S.b r c
/-- The calls that a consumer of the generators `ids` receives. -/
noncomputable def events (ids : List Nat) : List (CEvent ℝ) :=
  MSt.allEvents S.m S.N S.M S.b (streamDist S.π S.m S.kinds) ids MSt.init S.us
/-- The deliveries for a consumer of generator `id`. -/
noncomputable def dels (id : Nat) : List (Delivery ℝ) := MSt.allDeliveries S.m S.N S.M S.b (streamDist S.π S.m S.kinds id) MSt.init S.us
/-- The consumers with their generator ids at the end. -/
noncomputable def result (ops : GenOps (ColCache ℝ ⊕ ZN) ℝ → Ops (ColCache ℝ ⊕ ZN) C ℝ) (consumers : List (C × List Nat)) : Except PyErr (List (C × List Nat)) :=
  streamAll (ops (GenKind.ops S.memE S.memZ)) (S.kinds.map fun k => (k.1.streaming S.memE S.memZ, k.2)) consumers S.needed S.m S.N
    (S.M.map fun M : Nat => (M : Int)) S.nDim S.buffer S.os

/-- Arguments that the constructors accept, consumers `idss` of existing generators, calls with proper arguments; any data. -/
structure Any (idss : List (List Nat)) : Prop where
  memE : ∀ n, (S.memE n).length = n
  memZ : S.memZ.Ok
  args : StreamArgs S.m S.N S.M S.nDim S.buffer S.kinds idss S.needed
  calls : AreCalls S.nDim S.π S.m S.N S.M MSt.init S.us S.os
  valid : MSt.init.All S.m S.N S.M (fun u op => u.Valid S.m S.M op) S.us

/-- The same and, for Euclidean generators, whenever columns are calculated, no two different subsequences in the windows at squared distance below `1e-15`
(`C62_euclidean_nan`). -/
structure Ok (idss : List (List Nat)) : Prop extends S.Any idss where
  good : MSt.init.All S.m S.N S.M (fun u op => ∀ k, op = .columns k → ∀ g ∈ S.kinds,
    g.1.Good S.m (lastN S.N (u.s.map (S.π g.2))) (lastN (S.M.getD S.N) (u.q.map (S.π g.2)))) S.us

variable {S}

theorem events_single (id : Nat) : S.events [id] = (S.dels id).map Delivery.event := allEvents_single _ _ _ _ _ _ _ _

theorem Any.id_lt {idss : List (List Nat)} (h : S.Any idss) {ids : List Nat} (h1 : ids ∈ idss) {id : Nat} (h2 : id ∈ ids) : id < S.kinds.length :=
  h.args.ids ids h1 id h2

theorem Ok.validGood {idss : List (List Nat)} (h : S.Ok idss) : MSt.init.All S.m S.N S.M (fun u op => u.Valid S.m S.M op ∧ ∀ k, op = .columns k → ∀ g ∈ S.kinds,
    g.1.Good S.m (lastN S.N (u.s.map (S.π g.2))) (lastN (S.M.getD S.N) (u.q.map (S.π g.2)))) S.us := by
  have h1 := h.valid
  have h2 := h.good
  revert h1 h2
  generalize S.us = us
  generalize (MSt.init : MSt α) = u
  induction us generalizing u with
  | nil => intro _ _; trivial
  | cons x us ih => intro h1 h2; exact ⟨⟨h1.1, h2.1⟩, ih _ h1.2 h2.2⟩

theorem Any.fits {idss : List (List Nat)} (h : S.Any idss) (id : Nat) :
    SeenFits S.m S.N S.M S.b (streamDist S.π S.m S.kinds id) S.last (Seen.init.run (S.dels id)) :=
  SeenFits.run h.args.pos S.us MSt.init Seen.init (SeenFits.init _ _ _ _ _) h.valid

theorem Any.dels_valid {idss : List (List Nat)} (h : S.Any idss) {id : Nat} (hid : id < S.kinds.length) : ∀ d ∈ S.dels id, d.Valid S.h S.w ∧ d.ColumnClean :=
  allDeliveries_valid h.args.pos (streamDist_ne_nan S.π S.m S.kinds id hid) S.us MSt.init (fun _ => rfl) h.args.query h.args.series h.valid

/-- What every single consumer does, all consumers do. -/
theorem consumers (ops : GenOps (ColCache ℝ ⊕ ZN) ℝ → Ops (ColCache ℝ ⊕ ZN) C ℝ) (hops : ∀ g, (ops g).gen = g) (cs : List (C × List Nat))
    (hS : S.Ok (cs.map (·.2))) (Post : C × List Nat → C → Prop)
    (hfed : ∀ c ∈ cs, ∃ p0 p', (ops (GenKind.ops S.memE S.memZ)).initialise c.1 c.2.length (S.h : Int) (S.w : Int) = .ok p0 ∧
      feed (ops (GenKind.ops S.memE S.memZ)) p0 (S.events c.2) = .ok p' ∧ Post c p') :
    ∃ cons', S.result ops cs = .ok cons' ∧ List.Forall₂ (fun c c' => c'.2 = c.2 ∧ Post c c'.1) cs cons' := by
  obtain ⟨c1, hc1, hx1⟩ := exists_list (fun _ (c : C × List Nat) (x : C × C) =>
    (ops (GenKind.ops S.memE S.memZ)).initialise c.1 c.2.length (S.h : Int) (S.w : Int) = .ok x.1 ∧
      feed (ops (GenKind.ops S.memE S.memZ)) x.1 (S.events c.2) = .ok x.2 ∧ Post c x.2) cs (by
      intro i c hc
      obtain ⟨p0, p', h⟩ := hfed c (List.mem_of_getElem? hc)
      exact ⟨(p0, p'), h⟩)
  obtain ⟨l1, l2, l3⟩ := zip_cases (fun c ids p => (ops (GenKind.ops S.memE S.memZ)).initialise c ids.length (S.h : Int) (S.w : Int) = .ok p)
    (fun p ids p' => feed (ops (GenKind.ops S.memE S.memZ)) p (S.events ids) = .ok p') Post hc1 hx1
  refine ⟨List.zipWith (fun c x => (x.2, c.2)) cs c1, ?_, l3⟩
  exact C62_stream_feed_partial S.memE hS.memE S.memZ hS.memZ (ops (GenKind.ops S.memE S.memZ)) (hops _) S.π S.m S.N S.M S.nDim S.buffer S.kinds
    cs (List.zipWith (fun (c : C × List Nat) (x : C × C) => (x.1, c.2)) cs c1) _ S.needed hS.args l1 S.us S.os hS.calls hS.validGood l2

/-- The same for consumers `f x` made from arguments `x`. -/
theorem consumersOf {ι : Type} (ops : GenOps (ColCache ℝ ⊕ ZN) ℝ → Ops (ColCache ℝ ⊕ ZN) C ℝ) (hops : ∀ g, (ops g).gen = g) (xs : List ι) (f : ι → C × List Nat)
    (hS : S.Ok (xs.map fun x => (f x).2)) (Post : ι → C → Prop)
    (hfed : ∀ x ∈ xs, ∃ p0 p', (ops (GenKind.ops S.memE S.memZ)).initialise (f x).1 (f x).2.length (S.h : Int) (S.w : Int) = .ok p0 ∧
      feed (ops (GenKind.ops S.memE S.memZ)) p0 (S.events (f x).2) = .ok p' ∧ Post x p') :
    ∃ cons', S.result ops (xs.map f) = .ok cons' ∧ List.Forall₂ (fun x c' => c'.2 = (f x).2 ∧ Post x c'.1) xs cons' := by
  obtain ⟨cons', h1, h2⟩ := StreamCase.consumers (S := S) ops hops (xs.map f) (by simpa [List.map_map, Function.comp_def] using hS)
    (fun c p => ∀ x ∈ xs, f x = c → Post x p) (by
      intro c hc
      obtain ⟨x, hx, rfl⟩ := List.mem_map.mp hc
      obtain ⟨p0, p', e1, e2, -⟩ := hfed x hx
      refine ⟨p0, p', e1, e2, fun y hy hyx => ?_⟩
      obtain ⟨q0, q', g1, g2, g3⟩ := hfed y hy
      rw [hyx, e1] at g1
      cases g1
      rw [hyx, e2] at g2
      cases g2
      exact g3)
  refine ⟨cons', h1, ?_⟩
  rw [List.forall₂_map_left_iff] at h2
  rw [List.forall₂_iff_get] at h2 ⊢
  refine ⟨h2.1, fun i hi hi' => ?_⟩
  have := h2.2 i hi hi'
  exact ⟨this.1, this.2 _ (List.get_mem _ _) rfl⟩

end StreamCase
end Verif
