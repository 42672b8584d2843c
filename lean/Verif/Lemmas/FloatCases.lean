import Verif.Lemmas.RoundedBatch
import Verif.Lemmas.NearCases

/-!
Whole calculations in floating point, and the transfer of what a single consumer does to all consumers of a calculation.
-/

namespace Verif
open Spec
variable {α C K : Type}

/-- The arithmetic keeps to the bounds, and these separate flat from other subsequences. -/
structure FloatEnv.Good (F : FloatEnv) (b : FloatBounds) (m : Nat) : Prop where
  rounding : IsRounding F.rnd b.u b.η
  dots : F.dots.Ok F.rnd
  stat : RoundedZ.StatWithin m b.L b.μ b.σ F.stat
  conv : RoundedZ.ConvWithin m b.L b.E F.conv
  L_nonneg : 0 ≤ b.L
  E_nonneg : 0 ≤ b.E
  devs : devErr b.u b.η b.L b.σ < b.τ ^ 2
  above : 1 / 10 ^ 6 < b.τ
  above' : F.rnd (1 / 10 ^ 6) + b.σ < b.τ
  below : b.φ ≤ 1 / 10 ^ 6
  below' : b.φ + b.σ ≤ F.rnd (1 / 10 ^ 6)

/-- Bound on the error of a distance in a calculation with a query of at most `n` points. -/
noncomputable def GenKind.floatErr (F : FloatEnv) (b : FloatBounds) (m n : Nat) : GenKind → ℝ
  | .euclidean _ => rootErr b.u b.η (euclidSqErr b.u b.η (F.rnd (1 / 10 ^ 15)) m b.L n) (2 * √m * b.L)
  | .znorm noise _ => rootErr b.u b.η (znormSqErr b.u b.η (F.rnd (1 / 10 ^ 12)) m b.L b.μ b.σ b.τ noise b.E n) (2 * √m)

/-- Squared distance below which a column may contain NaN. -/
noncomputable def GenKind.nanBelow (F : FloatEnv) (b : FloatBounds) (m n : Nat) : GenKind → ℝ
  | .euclidean _ => columnErr b.u b.η (F.rnd (1 / 10 ^ 15)) m b.L n
  | .znorm _ _ => 0

/-- Data within the bounds; for the z-normalised distance, all subsequences clearly flat or clearly not flat. -/
def GenKind.FloatData (F : FloatEnv) (b : FloatBounds) (m : Nat) (k : GenKind) (s q : List ℝ) : Prop :=
  match k with
  | .euclidean _ => Rounded.Bounded F.rnd b.L s ∧ Rounded.Bounded F.rnd b.L q
  | .znorm _ _ => (∀ x ∈ s, |x| ≤ b.L) ∧ (∀ x ∈ q, |x| ≤ b.L) ∧ (∀ j, j + m ≤ s.length → RoundedZ.Clear b.τ b.φ (std m (seqOf s) j)) ∧
      ∀ i, i + m ≤ q.length → RoundedZ.Clear b.τ b.φ (std m (seqOf q) i)

/-- The generator has been given the data, and what it keeps from earlier columns is within the bounds. -/
def GenKind.FloatHolds (F : FloatEnv) (b : FloatBounds) (m N : Nat) (M : Option Nat) (k : GenKind) (x : ColCache ℝ ⊕ RoundedZ.Gen ℝ) (st : GSt ℝ) : Prop :=
  match k with
  | .euclidean _ => ∃ g, x = .inl g ∧ Rounded.Holds F.rnd b.u b.η m b.L N M g st
  | .znorm noise _ => ∃ g, x = .inr g ∧ RoundedZ.Holds F.rnd F.stat b.u b.η m noise b.L b.E N M g st

/-- Calls within the bounds. -/
def GenKind.FloatCall (F : FloatEnv) (b : FloatBounds) (m n : Nat) (M : Option Nat) (k : GenKind) (st : GSt ℝ) (op : GOp ℝ) : Prop :=
  st.Valid m M op ∧ st.Safe op ∧ st.q.length ≤ n ∧ k.FloatData F b m st.s st.q

theorem GenKind.floatErr_nonneg {F : FloatEnv} {b : FloatBounds} {m : Nat} (h : F.Good b m) (n : Nat) (k : GenKind) : 0 ≤ k.floatErr F b m n := by
  have h1 := h.rounding.u_nonneg
  have h2 := h.rounding.η_nonneg
  have h3 := h.L_nonneg
  cases k <;> unfold GenKind.floatErr rootErr <;> positivity

theorem GenKind.dist_within (m : Nat) (k : GenKind) {ε B : ℝ} (h : 0 ≤ ε) (w x : List ℝ) : Within ε B (k.dist m w x) (k.dist m w x) := by
  cases k with
  | euclidean scale => exact ⟨_, rfl, .inr ⟨_, rfl, Real.sqrt_nonneg _, by simpa using h⟩⟩
  | znorm noise scale => exact ⟨_, rfl, .inr ⟨_, rfl, zdist_nonneg _ _ _ _ _ _, by simpa using h⟩⟩

theorem GenKind.floatServes {F : FloatEnv} {b : FloatBounds} {m : Nat} (h : F.Good b m) (memE : Nat → List (Fl ℝ)) (hmemE : ∀ n, (memE n).length = n)
    (memZ : ZN.Mem) (hmemZ : memZ.Ok) (N : Nat) (M : Option Nat) (n : Nat) (k : GenKind) :
    WinServes (F.ops memE memZ) m N M (fun w x v => Within (k.floatErr F b m n) 0 (k.dist m w x) v)
      (fun w x v => Within (k.floatErr F b m n) (k.nanBelow F b m n) (k.dist m w x) v) (k.FloatCall F b m n M) (k.FloatHolds F b m N M) := by
  cases k with
  | euclidean scale =>
    have := (Rounded.winServes h.rounding F.dots h.dots memE hmemE m N M n b.L h.L_nonneg scale).inl
      (b := RoundedZ.genOps F.rnd F.stat F.conv memZ.fl Real.sqrt)
    refine ⟨fun x st c h1 h2 => this.column x st c h1 ⟨h2.1, h2.2.1, h2.2.2.2.1, h2.2.2.2.2, h2.2.2.1⟩,
      fun x st d h1 h2 => this.diag x st d h1 ⟨h2.1, h2.2.1, h2.2.2.2.1, h2.2.2.2.2, h2.2.2.1⟩⟩
  | znorm noise scale =>
    have := (RoundedZ.winServes h.rounding F.stat F.conv memZ.rounded hmemZ m N M n b.L b.μ b.σ b.E b.τ b.φ noise h.L_nonneg h.E_nonneg h.stat h.conv h.devs
      h.above h.above' h.below h.below' scale).inr (a := Rounded.genOps F.rnd F.dots memE Real.sqrt)
    refine ⟨fun x st c h1 h2 => this.column x st c h1 ⟨h2.1, h2.2.1, h2.2.2.2.1, h2.2.2.2.2.1, h2.2.2.1, h2.2.2.2.2.2⟩,
      fun x st d h1 h2 => this.diag x st d h1 ⟨h2.1, h2.2.1, h2.2.2.2.1, h2.2.2.2.2.1, h2.2.2.1, h2.2.2.2.2.2⟩⟩

theorem GenKind.float_prepare {F : FloatEnv} {b : FloatBounds} (memE : Nat → List (Fl ℝ)) (hmemE : ∀ n, (memE n).length = n)
    (memZ : ZN.Mem) (hmemZ : memZ.Ok) (m : Nat) (hm0 : 0 < m) (s : List ℝ) (q : Option (List ℝ)) (hs : m ≤ s.length)
    (hq : ∀ q', q = some q' → m ≤ q'.length) (k : GenKind) :
    ∃ x, F.prepare memE memZ k m (s.map .fin) (q.map (·.map .fin)) = .ok x ∧ k.FloatHolds F b m s.length (q.map (·.length)) x ⟨s, q.getD s, none⟩ := by
  cases k with
  | euclidean scale =>
    obtain ⟨g, h1, h2, h3, h4⟩ := Eucl.prepare_ok memE hmemE m hm0 s q hs (by
      rintro rfl
      have := hq [] rfl
      simp at this; omega)
    refine ⟨.inl g, by simp only [FloatEnv.prepare, h1, Except.map], g, rfl, h2, ⟨fun fr hfr => ?_, h4⟩⟩
    rw [h3] at hfr; cases hfr
  | znorm noise scale =>
    obtain ⟨z, h1, h2, h3⟩ := RoundedZ.prepare_ok (rnd := F.rnd) (stat := F.stat) (mem := memZ.rounded) hmemZ noise m hm0 s q hs hq
    exact ⟨.inr z, by simp only [FloatEnv.prepare, h1, Except.map], z, rfl, h2, h3 _ _⟩

/-- The same call on the same column or diagonal with related values. -/
def NearCall (Rel : Nat → Fl K → Fl K → Prop) (ids : List Nat) (e e' : CEvent K) : Prop :=
  (∃ (c : Int) (F F' : Nat → List (Fl K)), e = .column c (ids.map F) ∧ e' = .column c (ids.map F') ∧ ∀ id ∈ ids, List.Forall₂ (Rel id) (F id) (F' id)) ∨
  ∃ (d : Int) (F F' : Nat → List (Fl K)), e = .diagonal d (ids.map F) ∧ e' = .diagonal d (ids.map F') ∧ ∀ id ∈ ids, List.Forall₂ (Rel id) (F id) (F' id)

/-- Tables related to the distances give calls related to those with the distances. -/
theorem batch_nearCalls {m n : Nat} {selfJoin : Bool} {b : Int} {order : List Int} {D : Nat → List α → List α → Fl K}
    {RelD RelC : Nat → List α → List α → Fl K → Prop} {Rel : Nat → Fl K → Fl K → Prop}
    {s q : List α} {ids : List Nat} (hids : ∀ id ∈ ids, id < n) (hord : OrderOk m selfJoin b order s.length q.length) (hinf : ∀ id ∈ ids, Rel id .pinf .pinf)
    (hD : ∀ id ∈ ids, ∀ r c v, r + m ≤ q.length → c + m ≤ s.length → RelD id ((s.drop c).take m) ((q.drop r).take m) v →
      Rel id (D id ((s.drop c).take m) ((q.drop r).take m)) v) : ∀ (vs : List (BOp × Table K)) (u : BSt),
      (∀ a c, .columns a c ∈ vs.map Prod.fst → a < c → c + m ≤ s.length + 1) → (∀ x ∈ vs, OpTable m n RelD RelC s q x) →
      ((∃ a c, a < c ∧ .columns a c ∈ vs.map Prod.fst) → ∀ id ∈ ids, ∀ r c v, r + m ≤ q.length → c + m ≤ s.length →
        ¬ ((r : Int) - c ≤ b ∧ (c : Int) - r ≤ b) → RelC id ((s.drop c).take m) ((q.drop r).take m) v → Rel id (D id ((s.drop c).take m) ((q.drop r).take m)) v) →
      List.Forall₂ (NearCall Rel ids) (BSt.allEvents m selfJoin b order D s q ids u (vs.map Prod.fst))
        (BSt.allTableEvents m selfJoin b order q.length s.length ids u vs) := by
  intro vs
  induction vs with
  | nil => intro u _ _ _; exact .nil
  | cons x vs ih =>
    intro u hv hn hC
    obtain ⟨op, V⟩ := x
    rw [List.map_cons, BSt.allTableEvents, BSt.allEvents]
    refine List.rel_append ?_ (ih (u.step op) (fun a c h => hv a c (by simp [h])) (fun x hx => hn x (by simp [hx]))
      (fun ⟨a, c, h1, h2⟩ => hC ⟨a, c, h1, by simp [h2]⟩))
    have hV := hn (op, V) (by simp)
    cases op with
    | diagonals k =>
      change TableRel m n RelD s q V at hV
      have hone : ∀ d ∈ order, ∀ id ∈ ids, List.Forall₂ (Rel id) (diagValues (D id) m s q d) (tableDiag V m q.length s.length id d) := by
        intro d hd id hid
        obtain ⟨o1, o2, -⟩ := hord d hd
        unfold diagValues tableDiag
        rw [List.forall₂_map_left_iff, List.forall₂_map_right_iff, List.forall₂_same]
        intro i hi
        rw [List.mem_range] at hi
        unfold diagEntries at hi
        exact hD id hid _ _ _ (by omega) (by omega) (hV id (hids id hid) _ _ (by omega) (by omega))
      simp only [BSt.events, BSt.tableEvents]
      have hsub : ∀ d ∈ (order.take k).drop u.next, d ∈ order := fun d hd => List.mem_of_mem_take (List.mem_of_mem_drop hd)
      revert hsub
      generalize (order.take k).drop u.next = l
      intro hsub
      induction l with
      | nil => exact .nil
      | cons d l ih2 =>
        rw [List.flatMap_cons, List.flatMap_cons]
        have hone := hone d (hsub d (by simp))
        refine List.rel_append (.cons (.inr ⟨d, _, _, rfl, rfl, hone⟩) ?_) (ih2 fun d hd => hsub d (by simp [hd]))
        cases selfJoin with
        | false => exact .nil
        | true => exact .cons (.inr ⟨-d, _, _, rfl, rfl, hone⟩) .nil
    | columns a c =>
      change TableRel m n RelC s q V at hV
      have hac := hv a c (by simp)
      simp only [BSt.events, BSt.tableEvents]
      rw [List.forall₂_map_left_iff, List.forall₂_map_right_iff, List.forall₂_same]
      intro i hi
      rw [List.mem_range] at hi
      refine .inl ⟨_, _, _, rfl, rfl, fun id hid => ?_⟩
      unfold tableColumn
      rw [List.forall₂_map_left_iff, List.forall₂_map_right_iff, List.forall₂_same]
      intro r hr
      rw [List.mem_range] at hr
      unfold pairValue
      by_cases hb : (r : Int) - ((a + i : Nat) : Int) ≤ b ∧ ((a + i : Nat) : Int) - r ≤ b
      · simp only [if_pos hb]; exact hinf id hid
      · simp only [if_neg hb]
        exact hC ⟨a, c, by omega, by simp⟩ id hid r (a + i) _ (by omega) (by omega) hb (hV id (hids id hid) r (a + i) (by omega) (by omega))

namespace BatchCase
variable (B : BatchCase α) (F : FloatEnv) (b : FloatBounds)

/-- Bound on the error of the distances of generator `id`. -/
noncomputable def floatErr (id : Nat) : ℝ :=
  match B.kinds[id]? with
  | some k => k.1.floatErr F b B.m B.q.length
  | none => 0

/-- Squared distance below which columns of generator `id` may contain NaN. -/
noncomputable def nanBelow (id : Nat) : ℝ :=
  match B.kinds[id]? with
  | some k => k.1.nanBelow F b B.m B.q.length
  | none => 0

/-- The consumers with their generator ids at the end of the calculation in floating point. -/
noncomputable def floatResult (ops : GenOps (ColCache ℝ ⊕ RoundedZ.Gen ℝ) ℝ → Ops (ColCache ℝ ⊕ RoundedZ.Gen ℝ) C ℝ) (consumers : List (C × List Nat)) :
    Except PyErr (List (C × List Nat)) :=
  batchAll (ops (F.ops B.memE B.memZ)) B.shuffle (B.kinds.map fun k => (F.prepare B.memE B.memZ k.1, k.2)) consumers B.needed B.m
    (frameRows B.π B.nDim B.s) (B.query.map (frameRows B.π B.nDim)) B.buffer B.os

/-- Calculations within the bounds; if columns are calculated, no Euclidean distance too close to 0 (`C82_nan_wrong`). -/
structure FloatOk (idss : List (List Nat)) : Prop extends B.Any idss where
  env : F.Good b B.m
  data : ∀ k ∈ B.kinds, k.1.FloatData F b B.m (B.s.map (B.π k.2)) (B.q.map (B.π k.2))
  far : (∃ a c, a < c ∧ .columns a c ∈ B.us) → ∀ id < B.kinds.length, ∀ r < B.h, ∀ c < B.w, ¬ ((r : Int) - c ≤ B.b ∧ (c : Int) - r ≤ B.b) →
    B.nanBelow F b id ≤ B.value id r c ^ 2

variable {B F b}

theorem FloatOk.floatErr_nonneg {idss : List (List Nat)} (hB : B.FloatOk F b idss) (id : Nat) : 0 ≤ B.floatErr F b id := by
  unfold BatchCase.floatErr
  split
  · exact GenKind.floatErr_nonneg hB.env _ _
  · exact le_rfl

/-- What every single consumer does with calls near the exact ones, all consumers do. -/
theorem floatConsumers {ι : Type} (ops : GenOps (ColCache ℝ ⊕ RoundedZ.Gen ℝ) ℝ → Ops (ColCache ℝ ⊕ RoundedZ.Gen ℝ) C ℝ) (hops : ∀ g, (ops g).gen = g)
    (xs : List ι) (f : ι → C × List Nat) (hB : B.FloatOk F b (xs.map fun x => (f x).2)) (Post : ι → C → Prop)
    (hfed : ∀ x ∈ xs, ∃ p0, (ops (F.ops B.memE B.memZ)).initialise (f x).1 (f x).2.length (B.h : Int) (B.w : Int) = .ok p0 ∧
      ∀ es, List.Forall₂ (NearCall (fun id => CloseVal (B.floatErr F b id)) (f x).2) (B.events (f x).2) es →
        ∃ p', feed (ops (F.ops B.memE B.memZ)) p0 es = .ok p' ∧ Post x p') :
    ∃ cons', B.floatResult F ops (xs.map f) = .ok cons' ∧ List.Forall₂ (fun x c' => c'.2 = (f x).2 ∧ Post x c'.1) xs cons' := by
  classical
  have ha := hB.args
  have hm0 := ha.pos
  have hs := ha.series
  have hq := ha.queryLen
  have hql : B.m ≤ (B.query.getD B.s).length := batchQuery_le ha
  have hfed' : ∀ x, ∃ p0, x ∈ xs → (ops (F.ops B.memE B.memZ)).initialise (f x).1 (f x).2.length (B.h : Int) (B.w : Int) = .ok p0 ∧
      ∀ es, List.Forall₂ (NearCall (fun id => CloseVal (B.floatErr F b id)) (f x).2) (B.events (f x).2) es →
        ∃ p', feed (ops (F.ops B.memE B.memZ)) p0 es = .ok p' ∧ Post x p' := by
    intro x
    by_cases hx : x ∈ xs
    · obtain ⟨p0, h⟩ := hfed x hx
      exact ⟨p0, fun _ => h⟩
    · exact ⟨(f x).1, fun h => absurd h hx⟩
  choose p0 hp' using hfed'
  have hp0 := fun x hx => (hp' x hx).1
  have hp := fun x hx => (hp' x hx).2
  set gens := B.kinds.map fun k => (F.prepare B.memE B.memZ k.1, k.2) with hgens
  set D : Nat → List ℝ → List ℝ → Fl ℝ := fun i => match B.kinds[i]? with
    | some k => k.1.dist B.m
    | none => fun _ _ => .nan with hD
  set RelD : Nat → List ℝ → List ℝ → Fl ℝ → Prop := fun i w x v => match B.kinds[i]? with
    | some k => Within (B.floatErr F b i) 0 (k.1.dist B.m w x) v
    | none => True with hRelD
  set RelC : Nat → List ℝ → List ℝ → Fl ℝ → Prop := fun i w x v => match B.kinds[i]? with
    | some k => Within (B.floatErr F b i) (B.nanBelow F b i) (k.1.dist B.m w x) v
    | none => True with hRelC
  have herr : ∀ i k, B.kinds[i]? = some k → B.floatErr F b i = k.1.floatErr F b B.m B.q.length := by
    intro i k h; simp [BatchCase.floatErr, h]
  have hnan : ∀ i k, B.kinds[i]? = some k → B.nanBelow F b i = k.1.nanBelow F b B.m B.q.length := by
    intro i k h; simp [BatchCase.nanBelow, h]
  have hlen : gens.length = B.kinds.length := by simp [hgens]
  have hget : ∀ i < B.kinds.length, ∃ k, B.kinds[i]? = some k := fun i hi => ⟨_, List.getElem?_eq_getElem hi⟩
  have hchan : ∀ i k, B.kinds[i]? = some k → (gens.map (·.2)).getD i 0 = k.2 := by
    intro i k h
    simp [hgens, List.getD_eq_getElem?_getD, h]
  have hnear : ∀ (vs : List (BOp × Table ℝ)), vs.map Prod.fst = B.us →
      (∀ y ∈ vs, OpTable B.m gens.length (frameRel B.π (gens.map (·.2)) RelD) (frameRel B.π (gens.map (·.2)) RelC) B.s (B.query.getD B.s) y) → ∀ x ∈ xs,
      List.Forall₂ (NearCall (fun id => CloseVal (B.floatErr F b id)) (f x).2) (B.events (f x).2)
        (BSt.allTableEvents B.m B.query.isNone (bufferOf B.m (B.query.map (·.length)) B.buffer) B.order (B.query.getD B.s).length B.s.length (f x).2
          BSt.init vs) := by
    intro vs h1 h2 x hx
    have hid : ∀ id ∈ (f x).2, id < B.kinds.length := fun id hid => hB.id_lt (List.mem_map_of_mem hx) hid
    rw [bufferOf_batch]
    have := batch_nearCalls (selfJoin := B.query.isNone) (b := B.b) (order := B.order) (ids := (f x).2) (D := streamDist B.π B.m B.kinds)
      (Rel := fun id => CloseVal (B.floatErr F b id)) (by rw [hlen]; exact hid) hB.order_ok.1 (fun _ _ => .inl ⟨rfl, rfl⟩) (by
        intro id hi r c v hr hc hv
        obtain ⟨k, hk⟩ := hget id (hid id hi)
        simp only [frameRel, hchan id k hk, hRelD, hk] at hv
        obtain ⟨y, e1, e2⟩ := hv
        rcases e2 with ⟨-, e2⟩ | ⟨z, e2, e3, e4⟩
        · exact absurd e2 (not_lt.mpr (sq_nonneg y))
        · refine .inr ⟨y, z, ?_, e2, e3, e4⟩
          rw [← e1]
          simp [streamDist, hk]) vs BSt.init (by rw [h1]; exact hB.calls.columns_fit hB.args.series) h2 (by
        rw [h1]
        intro hcol id hi r c v hr hc hb hv
        obtain ⟨k, hk⟩ := hget id (hid id hi)
        simp only [frameRel, hchan id k hk, hRelC, hk] at hv
        obtain ⟨y, e1, e2⟩ := hv
        have e3 : streamDist B.π B.m B.kinds id ((B.s.drop c).take B.m) ((B.q.drop r).take B.m) = .fin y := by
          rw [← e1]
          simp [streamDist, hk]
        rcases e2 with ⟨-, e2⟩ | ⟨z, e2, e4, e5⟩
        · have := hB.far hcol id (hid id hi) r (by unfold BatchCase.h; omega) c (by unfold BatchCase.w; omega) hb
          rw [streamDist_value _ _ _ _ (hid id hi)] at e3
          have e3 := Fl.fin.inj e3
          unfold BatchCase.value at this
          rw [e3] at this
          exact absurd e2 (not_lt.mpr this)
        · exact .inr ⟨y, z, e3, e2, e4, e5⟩)
    rw [h1] at this
    exact this
  have H := batchAll_win (enc := Fl.fin) (ops := ops (F.ops B.memE B.memZ)) B.shuffle hB.perm (m := B.m) (D := D) (RelD := RelD) (RelC := RelC)
    (Ok := fun i st op => ∀ k, B.kinds[i]? = some k → k.1.FloatCall F b B.m B.q.length (B.query.map (·.length)) st op)
    (Inv := fun i x st => ∀ k, B.kinds[i]? = some k → k.1.FloatHolds F b B.m B.s.length (B.query.map (·.length)) x st) (π := B.π) (nDim := B.nDim)
    gens B.s B.query ?_ ?_ ?_ hm0 ha.dims hs hq ?_ ?_ B.needed B.buffer ha.bufferLen ?_ B.us ?_
    (xs.map f) (xs.map fun x => (p0 x, (f x).2)) ?_ ?_
    (initialised (init := fun c n => (ops (F.ops B.memE B.memZ)).initialise c n (B.h : Int) (B.w : Int)) xs f p0 hp0) B.order ?_ B.os hB.calls ?_
  · obtain ⟨vs, h1, h2, cons2, h3, h4⟩ := H
    refine ⟨cons2, h3, ?_⟩
    unfold AllFed at h4
    rw [List.forall₂_map_left_iff] at h4
    rw [List.forall₂_iff_get] at h4 ⊢
    refine ⟨h4.1, fun i hi hi' => ?_⟩
    obtain ⟨g1, g2⟩ := h4.2 i hi hi'
    have hx : xs.get ⟨i, hi⟩ ∈ xs := List.get_mem _ _
    obtain ⟨p', e, e'⟩ := hp _ hx _ (hnear vs h1 h2 _ hx)
    refine ⟨g1, ?_⟩
    have g3 := g2.symm.trans e
    cases g3
    exact e'
  · intro i hi
    rw [hlen] at hi
    obtain ⟨k, h⟩ := hget i hi
    have := GenKind.floatServes hB.env B.memE hB.memE B.memZ hB.memZ B.s.length (B.query.map (·.length)) B.q.length k.1
    simp only [hops, hRelD, hRelC, h, herr i k h, hnan i k h, Option.some.injEq, forall_eq']
    exact this
  · intro i a c
    cases h : B.kinds[i]? with
    | none => simp [hRelD, h]
    | some k =>
      simp only [hRelD, hD, h]
      exact k.1.dist_within B.m (by rw [herr i k h]; exact k.1.floatErr_nonneg hB.env _) a c
  · intro i a c
    cases h : B.kinds[i]? with
    | none => simp [hRelC, h]
    | some k =>
      simp only [hRelC, hD, h]
      exact k.1.dist_within B.m (by rw [herr i k h]; exact k.1.floatErr_nonneg hB.env _) a c
  · intro g hg
    obtain ⟨k, h1, rfl⟩ := List.mem_map.mp hg
    exact ha.chan k h1
  · intro i g hg
    rw [hgens, List.getElem?_map] at hg
    obtain ⟨k, h1, rfl⟩ := Option.map_eq_some_iff.mp hg
    obtain ⟨x, h2, h3⟩ := GenKind.float_prepare (F := F) (b := b) B.memE hB.memE B.memZ hB.memZ B.m hm0 (B.s.map (B.π k.2))
      (B.query.map (·.map (B.π k.2))) (by simpa using hs)
      (by intro q' h; obtain ⟨q, e1, rfl⟩ := Option.map_eq_some_iff.mp h; simpa using hq q e1) k.1
    refine ⟨x, ?_, fun k' hk' => ?_⟩
    · rw [← h2, Option.map_map]; rfl
    · rw [h1] at hk'
      cases hk'
      simpa [Option.map_map, Function.comp_def, apply_ite, Option.getD_map] using h3
  · intro i g hg l d hv k' hk'
    rw [hgens, List.getElem?_map] at hg
    obtain ⟨k, h1, rfl⟩ := Option.map_eq_some_iff.mp hg
    obtain rfl : k = k' := Option.some.inj (h1.symm.trans hk')
    exact ⟨hv, trivial, by simp [BatchCase.q], hB.data k (List.mem_of_getElem? h1)⟩
  · intro _ i g hg l c hcm hsafe k' hk'
    rw [hgens, List.getElem?_map] at hg
    obtain ⟨k, h1, rfl⟩ := Option.map_eq_some_iff.mp hg
    obtain rfl : k = k' := Option.some.inj (h1.symm.trans hk')
    exact ⟨⟨by simpa using hcm, by simpa using hql⟩, hsafe, by simp [BatchCase.q], hB.data k (List.mem_of_getElem? h1)⟩
  · refine ⟨ha.nodup, fun id => ?_⟩
    rw [ha.needed]
    constructor
    · rintro ⟨ids, h1, h2⟩
      obtain ⟨x, h3, rfl⟩ := List.mem_map.mp h1
      exact ⟨f x, List.mem_map_of_mem h3, h2⟩
    · rintro ⟨c, h1, h2⟩
      obtain ⟨x, h3, rfl⟩ := List.mem_map.mp h1
      exact ⟨(f x).2, List.mem_map_of_mem h3, h2⟩
  · intro c hc' id hid
    obtain ⟨x, h3, rfl⟩ := List.mem_map.mp hc'
    rw [hlen]
    exact hB.id_lt (List.mem_map_of_mem h3) hid
  · rw [bufferOf_batch]; rfl
  · intro vs h1 h2
    apply allFed_of
    intro c hc
    obtain ⟨x, hx, rfl⟩ := List.mem_map.mp hc
    obtain ⟨p', e, -⟩ := hp x hx _ (hnear vs h1 h2 x hx)
    exact ⟨p', e⟩

end BatchCase
end Verif
