import Verif.Model.Filtered
import Verif.Lemmas.NearFilter
import Verif.Props.NearFeed

/-!
Generators with and without filters, one interface.
-/

namespace Verif
open Spec

section
variable {E A B K : Type} {enc : E → Fl K}

theorem NearServes.left {a : GenOps A K} {b : GenOps B K} {m N : Nat} {M : Option Nat} {D : List E → List E → Fl K} {Rel : Fl K → Fl K → Prop}
    {Ok : GSt E → GOp E → Prop} {Inv : A → GSt E → Prop} (H : NearServes enc a m N M D Rel Ok Inv) :
    NearServes enc (a.sum b) m N M D Rel Ok (fun g st => ∃ x, g = .inl x ∧ Inv x st) := by
  refine ⟨?_, ?_, ?_, ?_⟩
  · rintro g st v ⟨x, rfl, hi⟩ hok
    obtain ⟨x', h1, h2⟩ := H.series x st v hi hok
    exact ⟨.inl x', by simp [GenOps.sum, h1, Except.map], x', rfl, h2⟩
  · rintro g st v ⟨x, rfl, hi⟩ hok
    obtain ⟨x', h1, h2⟩ := H.query x st v hi hok
    exact ⟨.inl x', by simp [GenOps.sum, h1, Except.map], x', rfl, h2⟩
  · rintro g st v ⟨x, rfl, hi⟩ hok
    obtain ⟨x', vs, h1, h2, h3, h4⟩ := H.column x st v hi hok
    exact ⟨.inl x', vs, by simp [GenOps.sum, h1, Except.map], h2, h3, x', rfl, h4⟩
  · rintro g st v ⟨x, rfl, hi⟩ hok
    obtain ⟨x', h1, h2⟩ := H.diag x st v hi hok
    exact ⟨.inl x', by simp [GenOps.sum, h1, Except.map], x', rfl, h2⟩

theorem NearServes.right {a : GenOps A K} {b : GenOps B K} {m N : Nat} {M : Option Nat} {D : List E → List E → Fl K} {Rel : Fl K → Fl K → Prop}
    {Ok : GSt E → GOp E → Prop} {Inv : B → GSt E → Prop} (H : NearServes enc b m N M D Rel Ok Inv) :
    NearServes enc (a.sum b) m N M D Rel Ok (fun g st => ∃ x, g = .inr x ∧ Inv x st) := by
  refine ⟨?_, ?_, ?_, ?_⟩
  · rintro g st v ⟨x, rfl, hi⟩ hok
    obtain ⟨x', h1, h2⟩ := H.series x st v hi hok
    exact ⟨.inr x', by simp [GenOps.sum, h1, Except.map], x', rfl, h2⟩
  · rintro g st v ⟨x, rfl, hi⟩ hok
    obtain ⟨x', h1, h2⟩ := H.query x st v hi hok
    exact ⟨.inr x', by simp [GenOps.sum, h1, Except.map], x', rfl, h2⟩
  · rintro g st v ⟨x, rfl, hi⟩ hok
    obtain ⟨x', vs, h1, h2, h3, h4⟩ := H.column x st v hi hok
    exact ⟨.inr x', vs, by simp [GenOps.sum, h1, Except.map], h2, h3, x', rfl, h4⟩
  · rintro g st v ⟨x, rfl, hi⟩ hok
    obtain ⟨x', h1, h2⟩ := H.diag x st v hi hok
    exact ⟨.inr x', by simp [GenOps.sum, h1, Except.map], x', rfl, h2⟩

theorem NearServes.mono {a : GenOps A K} {m N : Nat} {M : Option Nat} {D : List E → List E → Fl K} {Rel : Fl K → Fl K → Prop}
    {Ok Ok' : GSt E → GOp E → Prop} {Inv : A → GSt E → Prop} (H : NearServes enc a m N M D Rel Ok Inv) (h : ∀ st op, Ok' st op → Ok st op) :
    NearServes enc a m N M D Rel Ok' Inv :=
  ⟨fun g st v h1 h2 => H.series g st v h1 (h _ _ h2), fun g st v h1 h2 => H.query g st v h1 (h _ _ h2),
    fun g st v h1 h2 => H.column g st v h1 (h _ _ h2), fun g st v h1 h2 => H.diag g st v h1 (h _ _ h2)⟩

end

theorem Filter.streamingOps_serves {E G K : Type} [Zero K] {enc : E → Fl K} {ops : GenOps G K} {m N : Nat} {M : Option Nat} {D : List E → List E → Fl K}
    {Rel : Fl K → Fl K → Prop} {Ok : GSt E → GOp E → Prop} {Inv : Filter.Streaming G → GSt E → Prop} (p : Fl K → Bool)
    (H : NearServes enc (Filter.Streaming.ops ops (fun l _ => l.map p)) m N M D Rel Ok Inv) :
    NearServes enc (Filter.streamingOps ops) m N M D Rel Ok (fun g st => g.1 = p ∧ Inv g.2 st) := by
  refine ⟨?_, ?_, ?_, ?_⟩
  · rintro ⟨_, x⟩ st v ⟨rfl, hi⟩ hok
    obtain ⟨x', h1, h2⟩ := H.series x st v hi hok
    refine ⟨(_, x'), ?_, rfl, h2⟩
    show (Filter.Streaming.appendSeries ops _ x _).map _ = _
    rw [show Filter.Streaming.appendSeries ops _ x _ = _ from h1]; rfl
  · rintro ⟨_, x⟩ st v ⟨rfl, hi⟩ hok
    obtain ⟨x', h1, h2⟩ := H.query x st v hi hok
    refine ⟨(_, x'), ?_, rfl, h2⟩
    show (Filter.Streaming.appendQuery ops _ x _).map _ = _
    rw [show Filter.Streaming.appendQuery ops _ x _ = _ from h1]; rfl
  · rintro ⟨_, x⟩ st c ⟨rfl, hi⟩ hok
    obtain ⟨x', vs, h1, h2, h3, h4⟩ := H.column x st c hi hok
    refine ⟨(_, x'), vs, ?_, h2, h3, rfl, h4⟩
    show (Filter.Streaming.calcColumn ops x _).map _ = _
    rw [show Filter.Streaming.calcColumn ops x _ = _ from h1]; rfl
  · rintro ⟨_, x⟩ st c ⟨rfl, hi⟩ hok
    obtain ⟨x', h1, h2⟩ := H.diag x st c hi hok
    refine ⟨(_, x'), ?_, rfl, h2⟩
    show (Filter.Streaming.calcDiagonal ops x _).map _ = _
    rw [show Filter.Streaming.calcDiagonal ops x _ = _ from h1]; rfl

/-! ### What is known of a generator -/

/-- A description of the generators without filters: how columns relate to the distances, on which data, and with which invariant of their states. -/
structure GenMode where
  Rel : GenKind → Fl ℝ → Fl ℝ → Prop
  Holds : Nat → Nat → Option Nat → GenKind → ColCache ℝ ⊕ ZN → GSt ℝ → Prop
  good : Nat → GenKind → List ℝ → List ℝ → Prop
  refl : ∀ m k a b, Rel k (k.dist m a b) (k.dist m a b)
  serves : ∀ (memE : Nat → List (Fl ℝ)) (_ : ∀ n, (memE n).length = n) (memZ : ZN.Mem) (_ : memZ.Ok) (m N : Nat) (M : Option Nat) (k : GenKind),
    NearServes .fin (GenKind.ops memE memZ) m N M (k.dist m) (Rel k) (fun st op => st.Valid m M op ∧ st.Safe op ∧ ∀ c, op = .column c → good m k st.s st.q)
      (Holds m N M k)
  streaming : ∀ (memE : Nat → List (Fl ℝ)) (_ : ∀ n, (memE n).length = n) (memZ : ZN.Mem) (_ : memZ.Ok) (m N : Nat)
    (M : Option Nat) (_ : 0 < m) (_ : m ≤ N) (_ : ∀ M', M = some M' → m ≤ M') (k : GenKind) (_ : k.ScaleOk),
    ∃ x, k.streaming memE memZ m N (M.map fun M : Nat => (M : Int)) = .ok x ∧ Holds m N M k x ⟨[], [], none⟩
  prepare : ∀ (memE : Nat → List (Fl ℝ)) (_ : ∀ n, (memE n).length = n) (memZ : ZN.Mem) (_ : memZ.Ok) (m : Nat) (_ : 0 < m)
    (s : List ℝ) (q : Option (List ℝ)) (_ : m ≤ s.length) (_ : ∀ q', q = some q' → m ≤ q'.length) (k : GenKind),
    ∃ x, k.prepare memE memZ m (s.map .fin) (q.map (·.map .fin)) = .ok x ∧ Holds m s.length (q.map (·.length)) k x ⟨s, q.getD s, none⟩

/-- Any data: columns are near the distances. -/
def nearMode : GenMode where
  Rel := GenKind.Near
  Holds := fun m N M k => k.NearHolds m N M
  good := fun _ _ _ _ => True
  refl := fun m k a b => k.near_refl m a b
  serves := fun memE hmemE memZ hmemZ m N M k => (GenKind.nearServes memE hmemE memZ hmemZ m N M k).mono fun _ _ h => ⟨h.1, h.2.1⟩
  streaming := GenKind.near_streaming
  prepare := GenKind.near_prepare

/-- No tiny Euclidean distances: columns are exact. -/
def exactMode : GenMode where
  Rel := fun _ => Eq
  Holds := fun m N M k => k.Holds m N M
  good := fun m k => k.Good m
  refl := fun _ _ _ _ => rfl
  serves := fun memE hmemE memZ hmemZ m N M k => (GenKind.serves memE hmemE memZ hmemZ m N M k).near.mono fun st op h => by
    cases k with
    | euclidean scale => exact ⟨h.1, h.2.1, h.2.2⟩
    | znorm noise scale => exact ⟨h.1, h.2.1⟩
  streaming := GenKind.streaming_ok
  prepare := GenKind.prepare_ok

/-! ### What the generators calculate -/

/-- The generator itself, or the wrapped one. -/
def FKind.inner : FKind → GenKind
  | .plain k => k
  | .filtered _ _ k => k

/-- The distance of two subsequences of the data: under a filter `+inf` if one of them contains an invalid point, otherwise that of the generator. -/
noncomputable def FKind.dist (m : Nat) : FKind → List (Fl ℝ) → List (Fl ℝ) → Fl ℝ
  | .plain k, a, b => k.dist m (a.map numOf) (b.map numOf)
  | .filtered p _ k, a, b => filterDist p (k.dist m) a b

/-- How the values of columns of a generator relate to the distances. -/
def FKind.Near : FKind → Fl ℝ → Fl ℝ → Prop
  | .plain k => k.Near
  | .filtered _ _ k => FilterRel k.Near

/-- Filters accept no points that are not finite, and their ring buffers have a scale factor for which appending works. -/
def FKind.FilterOk : FKind → Prop
  | .plain _ => True
  | .filtered p scale _ => (∀ x, p x = false → ∃ y, x = .fin y) ∧ 1 ≤ scale ∧ scale ≤ 2

/-- Appends that are in order: finite data for a generator without filter, a non-empty array for a filter. -/
def FKind.AppendOk : FKind → List (Fl ℝ) → Prop
  | .plain _, v => ∀ x ∈ v, x.isFinite = true
  | .filtered _ _ _, v => v ≠ []

/-- Data for a batch calculation: finite if there is no filter. -/
def FKind.DataOk : FKind → List (Fl ℝ) → Prop
  | .plain _, v => ∀ x ∈ v, x.isFinite = true
  | .filtered _ _ _, _ => True

/-- The same for a description of the generators without filters. -/
def FKind.Rel (μ : GenMode) : FKind → Fl ℝ → Fl ℝ → Prop
  | .plain k => μ.Rel k
  | .filtered _ _ k => FilterRel (μ.Rel k)

/-- Good data of a generator; under a filter the wrapped generator gets 0 for the marked points. -/
def FKind.Good (μ : GenMode) (m : Nat) : FKind → List (Fl ℝ) → List (Fl ℝ) → Prop
  | .plain k, s, q => μ.good m k (s.map numOf) (q.map numOf)
  | .filtered p _ k, s, q => μ.good m k (s.map (cleanPoint p)) (q.map (cleanPoint p))

theorem FKind.rel_near (k : FKind) : k.Rel nearMode = k.Near := by cases k <;> rfl

theorem FKind.good_near (m : Nat) (k : FKind) (s q : List (Fl ℝ)) : k.Good nearMode m s q := by cases k <;> trivial

theorem FKind.rel_exact (k : FKind) (d v : Fl ℝ) (h : k.Rel exactMode d v) : v = d := by
  cases k with
  | plain k => exact Eq.symm h
  | filtered p scale k =>
    rcases h with ⟨rfl, rfl⟩ | h
    · rfl
    · exact Eq.symm h

theorem FKind.rel_refl (μ : GenMode) (m : Nat) (k : FKind) (a b : List (Fl ℝ)) : k.Rel μ (k.dist m a b) (k.dist m a b) := by
  cases k with
  | plain k => exact μ.refl m k _ _
  | filtered p scale k =>
    unfold FKind.Rel FKind.dist FilterRel filterDist
    dsimp only
    split
    · exact .inl ⟨rfl, rfl⟩
    · exact .inr (μ.refl m k _ _)

variable (μ : GenMode)

/-! ### Batch -/

/-- The state of a batch generator. -/
def FKind.BatchHolds (m N : Nat) (M : Option Nat) : FKind → FGen → GSt (Fl ℝ) → Prop
  | .plain k, g, st => ∃ x, g = .inl x ∧ μ.Holds m N M k x (numSt st)
  | .filtered p _ k, g, st => ∃ x, g = .inr x ∧ ∃ b, x = .inl b ∧ ∃ last, Filter.BInv (μ.Holds m N M k) m p b st last ∧ ∀ t e, last = some (t, e) → e = true

theorem numSt_valid (m : Nat) (M : Option Nat) (st : GSt (Fl ℝ)) (op : GOp (Fl ℝ)) (h : st.Valid m M op) : (numSt st).Valid m M (numOp op) := by
  cases op <;> simpa [GSt.Valid, numSt, numOp] using h

theorem numSt_safe (st : GSt (Fl ℝ)) (op : GOp (Fl ℝ)) (h : st.Safe op) : (numSt st).Safe (numOp op) := by
  cases op with
  | column c => exact h
  | _ => trivial

theorem numOp_column {P : List ℝ → List ℝ → Prop} (st : GSt (Fl ℝ)) (op : GOp (Fl ℝ)) (h : ∀ c, op = .column c → P (st.s.map numOf) (st.q.map numOf)) :
    ∀ c, numOp op = .column c → P (numSt st).s (numSt st).q := by
  intro c hc
  cases op with
  | column c' => exact h c' rfl
  | _ => cases hc

theorem FKind.batch_nearServes (memE : Nat → List (Fl ℝ)) (hmemE : ∀ n, (memE n).length = n) (memZ : ZN.Mem) (hmemZ : memZ.Ok) (m N : Nat)
    (M : Option Nat) (k : FKind) (hk : k.FilterOk) :
    NearServes id (FKind.ops memE memZ) m N M (k.dist m) (k.Rel μ)
      (fun st op => st.Valid m M op ∧ st.Safe op ∧ ((∀ v, op ≠ .series v) ∧ ∀ v, op ≠ .query v) ∧ ∀ c, op = .column c → k.Good μ m st.s st.q) (k.BatchHolds μ m N M) := by
  cases k with
  | plain k =>
    refine ((μ.serves memE hmemE memZ hmemZ m N M k).ofFinite.mono ?_).left
    rintro st op ⟨h1, h2, ⟨h3, h4⟩, h5⟩
    exact ⟨⟨numSt_valid m M st op h1, numSt_safe st op h2, numOp_column st op h5⟩, fun v h => by
      rcases h with h | h
      · exact absurd h (h3 v)
      · exact absurd h (h4 v)⟩
  | filtered p scale k =>
    refine ((Filter.Batch.nearServes (p := p) hk.1 (μ.serves memE hmemE memZ hmemZ m N M k)).mono ?_).left.right
    rintro st op ⟨h1, h2, h3, h4⟩
    exact ⟨h1, h3, h4⟩

theorem numOf_fin (v : List (Fl ℝ)) (h : ∀ x ∈ v, x.isFinite = true) : (v.map numOf).map .fin = v := by
  rw [List.map_map]
  conv_rhs => rw [← List.map_id v]
  apply List.map_congr_left
  intro x hx
  have := h x hx
  cases x <;> simp_all [Fl.isFinite, numOf]

theorem FKind.batch_prepare (memE : Nat → List (Fl ℝ)) (hmemE : ∀ n, (memE n).length = n) (memZ : ZN.Mem) (hmemZ : memZ.Ok) (m : Nat) (hm0 : 0 < m)
    (s : List (Fl ℝ)) (q : Option (List (Fl ℝ))) (hs : m ≤ s.length) (hq : ∀ q', q = some q' → m ≤ q'.length) (k : FKind) (hk : k.FilterOk)
    (hds : k.DataOk s) (hdq : ∀ q', q = some q' → k.DataOk q') :
    ∃ x, k.prepare memE memZ m s q = .ok x ∧ k.BatchHolds μ m s.length (q.map (·.length)) x ⟨s, q.getD s, none⟩ := by
  cases k with
  | plain k =>
    obtain ⟨x, h1, h2⟩ := μ.prepare memE hmemE memZ hmemZ m hm0 (s.map numOf) (q.map (·.map numOf)) (by simpa using hs)
      (by intro q' h; obtain ⟨q, e1, rfl⟩ := Option.map_eq_some_iff.mp h; simpa using hq q e1) k
    refine ⟨.inl x, ?_, x, rfl, ?_⟩
    · have e : (q.map (·.map numOf)).map (·.map Fl.fin) = q := by
        cases q with
        | none => rfl
        | some q => simp only [Option.map_some]; rw [numOf_fin q (hdq q rfl)]
      rw [numOf_fin s hds, e] at h1
      unfold FKind.prepare
      dsimp only
      rw [h1]; rfl
    · simpa [numSt, Option.map_map, Function.comp_def, Option.getD_map] using h2
  | filtered p scale k =>
    obtain ⟨b, h1, h2⟩ := Filter.Batch.fresh (m := m) (p := p) (f := fun l _ => l.map p) (Inv := μ.Holds m s.length (q.map (·.length)) k) (fun _ _ => rfl) hk.1
      (k.prepare memE memZ) hm0 s q hs hq (by
        obtain ⟨x, h1, h2⟩ := μ.prepare memE hmemE memZ hmemZ m hm0 (s.map (cleanPoint p)) (q.map (·.map (cleanPoint p))) (by simpa using hs)
          (by intro q' h; obtain ⟨q, e1, rfl⟩ := Option.map_eq_some_iff.mp h; simpa using hq q e1) k
        refine ⟨x, ?_, ?_⟩
        · rw [← h1, Option.map_map]; rfl
        · simpa [Option.map_map, Function.comp_def, Option.getD_map] using h2)
    refine ⟨.inr (.inl b), ?_, _, rfl, b, rfl, none, h2, by simp⟩
    unfold FKind.prepare
    simp only [Int.toNat_natCast, h1]
    rfl

/-! ### Streaming -/

/-- The state of a streaming generator. -/
def FKind.StreamHolds (m N : Nat) (M : Option Nat) : FKind → FGen → GSt (Fl ℝ) → Prop
  | .plain k, g, st => ∃ x, g = .inl x ∧ μ.Holds m N M k x (numSt st)
  | .filtered p _ k, g, st => ∃ x, g = .inr x ∧ ∃ y, x = .inr y ∧ y.1 = p ∧ ∃ last, Filter.SInv (μ.Holds m N M k) m N M p y.2 st last ∧
      ∀ t' e', last = some (t', e') → ∃ t e, st.last = some (t, e) ∧ t' ≤ t

theorem FKind.stream_nearServes (memE : Nat → List (Fl ℝ)) (hmemE : ∀ n, (memE n).length = n) (memZ : ZN.Mem) (hmemZ : memZ.Ok) (m N : Nat)
    (M : Option Nat) (k : FKind) (hk : k.FilterOk) :
    NearServes id (FKind.ops memE memZ) m N M (k.dist m) (k.Rel μ)
      (fun st op => st.Valid m M op ∧ (∀ v, op = .series v ∨ op = .query v → k.AppendOk v) ∧ (∀ c : Nat, op = .column c → ∀ t e, st.last = some (t, e) → t < (c : Int)) ∧
        ∀ c, op = .column c → k.Good μ m st.s st.q)
      (k.StreamHolds μ m N M) := by
  cases k with
  | plain k =>
    refine ((μ.serves memE hmemE memZ hmemZ m N M k).ofFinite.mono ?_).left
    rintro st op ⟨h1, h2, h3, h4⟩
    refine ⟨⟨numSt_valid m M st op h1, numSt_safe st op ?_, numOp_column st op h4⟩, h2⟩
    cases op with
    | column c => exact fun t e h => .inr (h3 c rfl t e h)
    | _ => trivial
  | filtered p scale k =>
    refine ((Filter.streamingOps_serves p (Filter.Streaming.nearServes (p := p) hk.1 (μ.serves memE hmemE memZ hmemZ m N M k))).mono ?_).right.right
    rintro st op ⟨h1, h2, h3⟩
    refine ⟨h1, ?_, h3⟩
    cases op with
    | series v => exact h2 v (.inl rfl)
    | query v => exact h2 v (.inr rfl)
    | _ => trivial

theorem FKind.stream_prepare (memE : Nat → List (Fl ℝ)) (hmemE : ∀ n, (memE n).length = n) (memZ : ZN.Mem) (hmemZ : memZ.Ok) (memB : Nat → List Bool)
    (hmemB : ∀ n, (memB n).length = n) (m N : Nat) (M : Option Nat) (hm0 : 0 < m) (hN : m ≤ N) (hM : ∀ M', M = some M' → m ≤ M') (k : FKind)
    (hk : k.FilterOk) (hsc : k.inner.ScaleOk) :
    ∃ x, k.streaming memE memZ memB m N (M.map fun M : Nat => (M : Int)) = .ok x ∧ k.StreamHolds μ m N M x ⟨[], [], none⟩ := by
  cases k with
  | plain k =>
    obtain ⟨x, h1, h2⟩ := μ.streaming memE hmemE memZ hmemZ m N M hm0 hN hM k hsc
    exact ⟨.inl x, by unfold FKind.streaming; dsimp only; rw [h1]; rfl, x, rfl, h2⟩
  | filtered p scale k =>
    obtain ⟨x, h1, h2⟩ := μ.streaming memE hmemE memZ hmemZ m N M hm0 hN hM k hsc
    obtain ⟨b, h3, h4⟩ := Filter.Streaming.fresh (m := m) (N := N) (M := M) (p := p) (Inv := μ.Holds m N M k)
      (fun m n q => k.streaming memE memZ m n (q.map fun q : Nat => (q : Int))) memB hmemB scale hk.2.1 hk.2.2 hm0 hN hM x h1 h2
    refine ⟨.inr (.inr (p, b)), ?_, _, rfl, _, rfl, rfl, none, h4, by simp⟩
    unfold FKind.streaming
    have e : (M.map fun M : Nat => (M : Int)).map Int.toNat = M := by cases M <;> simp
    simp only [Int.toNat_natCast, e, h3]
    rfl

end Verif
