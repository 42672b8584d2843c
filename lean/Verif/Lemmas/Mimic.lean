import Verif.Lemmas.Indifferent
import Verif.Lemmas.StreamFeed

/-!
Calculators whose generators give the same answers.
-/

namespace Verif
open Spec
variable {A B A' B' G G' C K : Type}

/-! ### Pairs of calls -/

theorem Alike.bind {R : A → B → Prop} {S : A' → B' → Prop} {x : Except PyErr A} {y : Except PyErr B} {f : A → Except PyErr A'} {g : B → Except PyErr B'} (h : Alike R x y)
    (hf : ∀ a b, R a b → Alike S (f a) (g b)) : Alike S (x >>= f) (y >>= g) := by
  obtain ⟨e, rfl, rfl⟩ | ⟨a, b, rfl, rfl, h⟩ := h
  · exact .inl ⟨e, rfl, rfl⟩
  · exact hf a b h

theorem Alike.ok {R : A → B → Prop} {a : A} {b : B} (h : R a b) : Alike R (.ok a) (.ok b) := .inr ⟨a, b, rfl, rfl, h⟩

theorem Alike.err {R : A → B → Prop} (e : PyErr) : Alike R (.error e) (.error e) := .inl ⟨e, rfl, rfl⟩

theorem Alike.refl (x : Except PyErr A) : Alike Eq x x := by
  cases x with
  | error e => exact .err e
  | ok a => exact .ok rfl

theorem Alike.of_eq {x y : Except PyErr A} (h : x = y) : Alike Eq x y := h ▸ .refl x

theorem Alike.eq {x y : Except PyErr A} (h : Alike Eq x y) : x = y := by
  obtain ⟨e, rfl, rfl⟩ | ⟨a, b, rfl, rfl, rfl⟩ := h <;> rfl

theorem Alike.mono {R S : A → B → Prop} {x : Except PyErr A} {y : Except PyErr B} (h : Alike R x y) (hs : ∀ a b, R a b → S a b) : Alike S x y := by
  obtain ⟨e, rfl, rfl⟩ | ⟨a, b, rfl, rfl, h⟩ := h
  · exact .err e
  · exact .ok (hs _ _ h)

theorem Alike.map {R : A → B → Prop} {S : A' → B' → Prop} {x : Except PyErr A} {y : Except PyErr B} {f : A → A'} {g : B → B'} (h : Alike R x y)
    (hf : ∀ a b, R a b → S (f a) (g b)) : Alike S (x.map f) (y.map g) := by
  obtain ⟨e, rfl, rfl⟩ | ⟨a, b, rfl, rfl, h⟩ := h
  · exact .err e
  · exact .ok (hf _ _ h)

theorem Alike.mapM {R : A → B → Prop} {S : A' → B' → Prop} {f : A → Except PyErr A'} {g : B → Except PyErr B'} (hf : ∀ a b, R a b → Alike S (f a) (g b)) {l : List A} {l' : List B}
    (h : List.Forall₂ R l l') : Alike (List.Forall₂ S) (l.mapM f) (l'.mapM g) := by
  induction h with
  | nil => exact .ok .nil
  | cons h hs ih =>
    rw [List.mapM_cons, List.mapM_cons]
    exact (hf _ _ h).bind fun a b hab => ih.bind fun as bs hs => .ok (.cons hab hs)

theorem forall₂_get {R : A → B → Prop} {l : List A} {l' : List B} (h : List.Forall₂ R l l') (n : Nat) :
    (l[n]? = none ∧ l'[n]? = none) ∨ ∃ a b, l[n]? = some a ∧ l'[n]? = some b ∧ R a b := by
  induction h generalizing n with
  | nil => exact .inl ⟨by simp, by simp⟩
  | cons h hs ih =>
    cases n with
    | zero => exact .inr ⟨_, _, rfl, rfl, h⟩
    | succ n => exact ih n

theorem forall₂_set {R : A → B → Prop} {l : List A} {l' : List B} (h : List.Forall₂ R l l') (n : Nat) {a : A} {b : B} (hab : R a b) :
    List.Forall₂ R (l.set n a) (l'.set n b) := by
  induction h generalizing n with
  | nil => exact .nil
  | cons h hs ih =>
    cases n with
    | zero => exact .cons hab hs
    | succ n => exact .cons h (ih n)

theorem pyGet_pair {R : A → B → Prop} {l : List A} {l' : List B} (h : List.Forall₂ R l l') (i : Int) : Alike R (pyGet l i) (pyGet l' i) := by
  unfold pyGet
  dsimp only
  rw [h.length_eq]
  generalize (if i < 0 then (l'.length : Int) + i else i) = j
  split
  · exact .err _
  · rcases forall₂_get h j.toNat with ⟨e1, e2⟩ | ⟨a, b, e1, e2, hab⟩
    · rw [e1, e2]; exact .err _
    · rw [e1, e2]; exact .ok hab

/-! ### Generators -/

/-- States of two generators related by `R ch` (for channel `ch`) give the same answers to all requests inside a distance matrix of height `h` and width `w`. -/
structure Answers (h w : Int) (R : Nat → G → G' → Prop) (a : GenOps G K) (b : GenOps G' K) : Prop where
  column : ∀ ch g g', R ch g g' → ∀ c, 0 ≤ c → c < w → Alike (fun x y => R ch x.1 y.1 ∧ x.2 = y.2) (a.calcColumn g c) (b.calcColumn g' c)
  diagonal : ∀ ch g g', R ch g g' → ∀ d, -h < d → d < w → Alike (fun x y => R ch x.1 y.1 ∧ x.2 = y.2) (a.calcDiagonal g d) (b.calcDiagonal g' d)

/-- States of two generators related by `R ns nq ch` (after `ns` points of the series and `nq` of the query) give the same answers to all requests for columns that lie in the
window of `w` subsequences, and remain related when they are given blocks of points related by `T ch`. Columns count only when `Ready ns nq`, and
the query grows only from a number of points that is not negative. -/
structure Mimics (m w : Int) (Ready : Int → Int → Prop) (T : Nat → List (Fl K) → List (Fl K) → Prop) (R : Int → Int → Nat → G → G' → Prop) (a : GenOps G K) (b : GenOps G' K) : Prop where
  column : ∀ ns nq ch g g', Ready ns nq → R ns nq ch g g' → ∀ c, 0 ≤ c → c < w → c + m ≤ ns →
    Alike (fun x y => R ns nq ch x.1 y.1 ∧ x.2 = y.2) (a.calcColumn g c) (b.calcColumn g' c)
  series : ∀ ns nq ch g g', R ns nq ch g g' → ∀ v v', T ch v v' → Alike (R (ns + v.length) nq ch) (a.appendSeries g v) (b.appendSeries g' v')
  query : ∀ ns nq ch g g', 0 ≤ nq → R ns nq ch g g' → ∀ v v', T ch v v' → Alike (R ns (nq + v.length) ch) (a.appendQuery g v) (b.appendQuery g' v')

/-- The same methods of consumers. -/
structure SameConsumers (ops : Ops G C K) (ops' : Ops G' C K) : Prop where
  initialise : ops'.initialise = ops.initialise
  column : ops'.processColumn = ops.processColumn
  diagonal : ops'.processDiagonal = ops.processDiagonal
  series : ops'.shiftSeries = ops.shiftSeries
  query : ops'.shiftQuery = ops.shiftQuery

/-- Calculators for a distance matrix of width `w` that differ in the generators only. -/
structure CalcPair (w : Int) (R : Nat → G → G' → Prop) (st : Calc G C) (st' : Calc G' C) : Prop where
  selfJoin : st'.selfJoin = st.selfJoin
  m : st'.m = st.m
  nDim : st'.nDim = st.nDim
  numSeries : st'.numSeries = st.numSeries
  numQuery : st'.numQuery = st.numQuery
  buffer : st'.buffer = st.buffer
  gens : List.Forall₂ (fun x y => y.2 = x.2 ∧ R x.2 x.1 y.1) st.gens st'.gens
  cons : st'.cons = st.cons
  lastCol : st'.lastCol = st.lastCol
  width : st.numSeries = w

theorem ratioToInt_range {r : PyNum} {full mx x : Int} (h : ratioToInt r full mx = .ok x) : x ≤ mx ∧ min 0 mx ≤ x := by
  have key : ∀ y : Int, min (max 0 y) mx ≤ mx ∧ min 0 mx ≤ min (max 0 y) mx := fun y => by omega
  unfold ratioToInt at h
  cases r with
  | float q =>
    dsimp only at h
    split at h
    · cases h
    · split at h
      · cases h; exact key _
      · cases h
  | int i => cases h; exact key _
  | other => cases h

section
variable {w : Int} {R : Nat → G → G' → Prop} {ops : Ops G C K} {ops' : Ops G' C K}

theorem genStep_pair {ask : G → Except PyErr (G × List (Fl K))} {ask' : G' → Except PyErr (G' × List (Fl K))}
    (hask : ∀ ch g g', R ch g g' → Alike (fun x y => R ch x.1 y.1 ∧ x.2 = y.2) (ask g) (ask' g')) (n : Nat) :
    ∀ (ids : List Nat) (gens : List (G × Nat)) (gens' : List (G' × Nat)) (rows : List (List (Fl K))), List.Forall₂ (fun x y => y.2 = x.2 ∧ R x.2 x.1 y.1) gens gens' →
      Alike (fun x y => List.Forall₂ (fun x y => y.2 = x.2 ∧ R x.2 x.1 y.1) x.1 y.1 ∧ x.2 = y.2) (Calc.genStep ask n ids gens rows) (Calc.genStep ask' n ids gens' rows)
  | [], _, _, _, h => .ok ⟨h, rfl⟩
  | id :: ids, gens, gens', rows, h => by
    unfold Calc.genStep
    refine (pyGet_pair h _).bind fun x y hxy => (hask _ _ _ hxy.2).bind fun r r' hr => ?_
    obtain ⟨r1, r2⟩ := r
    obtain ⟨r1', r2'⟩ := r'
    obtain ⟨h1, rfl⟩ := hr
    refine (Alike.refl (npRow n r2)).bind fun row row' e => ?_
    subst e
    refine (Alike.refl (pySet rows id row)).bind fun s s' e => ?_
    subst e
    refine genStep_pair hask n ids _ _ _ (forall₂_set h id ⟨hxy.1, h1⟩)

variable (hc : SameConsumers ops ops')
include hc

theorem columnStep_pair (needed : List Nat) (maxRow : Nat) (column : Int)
    (hg : ∀ ch g g', R ch g g' → Alike (fun x y => R ch x.1 y.1 ∧ x.2 = y.2) (ops.calcColumn g column) (ops'.calcColumn g' column)) {s : Calc G C × List (List (Fl K))}
    {s' : Calc G' C × List (List (Fl K))} (h : CalcPair w R s.1 s'.1 ∧ s.2 = s'.2) :
    Alike (fun x y => CalcPair w R x.1 y.1 ∧ x.2 = y.2) (Calc.columnStep ops needed maxRow column s) (Calc.columnStep ops' needed maxRow column s') := by
  obtain ⟨st, rows⟩ := s
  obtain ⟨st', rows'⟩ := s'
  obtain ⟨h, rfl⟩ := h
  unfold Calc.columnStep
  refine (genStep_pair hg maxRow needed _ _ _ h.gens).bind fun r r' hr => ?_
  obtain ⟨gens, rows⟩ := r
  obtain ⟨gens', rows'⟩ := r'
  obtain ⟨h1, rfl⟩ := hr
  dsimp only
  rw [h.cons, h.buffer, hc.column, h.lastCol]
  refine (Alike.refl _).bind fun cons cons' e => ?_
  subst e
  exact .ok ⟨⟨h.selfJoin, h.m, h.nDim, h.numSeries, h.numQuery, rfl, h1, rfl, rfl, h.width⟩, rfl⟩

theorem columnLoop_pair (needed : List Nat) (maxRow : Nat) (ints : Int → Bool) : ∀ (n : Nat) (column : Int) (s : Calc G C × List (List (Fl K))) (s' : Calc G' C × List (List (Fl K))),
    (∀ c, column ≤ c → c < column + n → ∀ ch g g', R ch g g' → Alike (fun x y => R ch x.1 y.1 ∧ x.2 = y.2) (ops.calcColumn g c) (ops'.calcColumn g' c)) →
    CalcPair w R s.1 s'.1 ∧ s.2 = s'.2 →
    Alike (fun x y => CalcPair w R x.1 y.1 ∧ x.2 = y.2) (Calc.columnLoop ops needed maxRow ints n column s) (Calc.columnLoop ops' needed maxRow ints n column s')
  | 0, _, _, _, _, h => .ok h
  | n + 1, column, s, s', hg, h => by
    unfold Calc.columnLoop
    split
    · exact .ok h
    · exact (columnStep_pair hc needed maxRow column (hg column (by omega) (by omega)) h).bind fun r r' hr =>
        columnLoop_pair needed maxRow ints n _ r r' (fun c h1 h2 => hg c (by omega) (by omega)) hr

theorem calculateColumns_pair (maxCol maxRow : Int)
    (hg : ∀ ch g g', R ch g g' → ∀ c, 0 ≤ c → c < maxCol → Alike (fun x y => R ch x.1 y.1 ∧ x.2 = y.2) (ops.calcColumn g c) (ops'.calcColumn g' c))
    (needed : List Nat) (ints : Int → Bool) (start : Option PyNum) (upto : PyNum) {st : Calc G C} {st' : Calc G' C}
    (h : CalcPair w R st st') :
    Alike (CalcPair w R) (st.calculateColumns ops maxCol maxRow needed ints start upto) (st'.calculateColumns ops' maxCol maxRow needed ints start upto) := by
  unfold Calc.calculateColumns
  rw [h.numSeries, h.lastCol, ← h.gens.length_eq]
  cases e1 : ratioToInt (start.getD (.int (st.lastCol + 1))) st.numSeries maxCol with
  | error e => exact .err e
  | ok a =>
    cases e2 : ratioToInt upto st.numSeries maxCol with
    | error e => exact .err e
    | ok b =>
      have h1 := ratioToInt_range e1
      have h2 := ratioToInt_range e2
      refine (Alike.refl (npFullNan K st.gens.length maxRow)).bind fun rows b e => ?_
      subst e
      exact (columnLoop_pair hc needed _ ints _ _ _ _ (fun c h3 h4 ch g g' hr => hg ch g g' hr c (by omega) (by omega)) ⟨h, rfl⟩).bind fun r r' hr => .ok hr.1

theorem addConsumer_pair (ids : List Nat) (c : C) {st : Calc G C} {st' : Calc G' C} (h : CalcPair w R st st') : Alike (CalcPair w R) (st.addConsumer ops ids c) (st'.addConsumer ops' ids c) := by
  unfold Calc.addConsumer
  rw [hc.initialise, h.numQuery, h.numSeries, h.cons]
  refine (Alike.refl _).bind fun a b e => ?_
  subst e
  exact .ok ⟨h.selfJoin, h.m, h.nDim, rfl, rfl, h.buffer, h.gens, rfl, h.lastCol, h.width⟩
end

/-! ### `AnytimeCalculator` -/

/-- Calculators for a distance matrix of height `h` and width `w` that differ in data and generators only. -/
structure AnytimePair (h w : Int) (series series' query query' : List (List (Fl K))) (R : Nat → G → G' → Prop) (st : Anytime G C K) (st' : Anytime G' C K) : Prop where
  base : CalcPair w R st.base st'.base
  series : st.series = series
  series' : st'.series = series'
  query : st.query = query
  query' : st'.query = query'
  order : st'.order = st.order
  total : st'.total = st.total
  next : st'.next = st.next
  calculated : st'.calculated = st.calculated
  height : st.base.numQuery = h
  inside : ∀ d ∈ st.order, -h < d ∧ d < w

section
variable {h w : Int} {series series' qry qry' : List (List (Fl K))} {R : Nat → G → G' → Prop} {ops : Ops G C K} {ops' : Ops G' C K}

theorem calcInit_pair (selfJoin : Bool) (m n n' : Int) (nDim : Nat) (buffer : Option Int) :
    Alike (fun x y => CalcPair n R x y ∧ x.selfJoin = selfJoin ∧ x.m = m ∧ x.numQuery = (if selfJoin then n else n') ∧ (selfJoin = true → -1 ≤ x.buffer))
      (Calc.init selfJoin m n n' nDim buffer : Except PyErr (Calc G C)) (Calc.init selfJoin m n n' nDim buffer : Except PyErr (Calc G' C)) := by
  unfold Calc.init
  cases selfJoin with
  | true =>
    simp only [if_true]
    split
    · rename_i hb
      refine .ok ⟨⟨rfl, rfl, rfl, rfl, rfl, rfl, .nil, rfl, rfl, rfl⟩, rfl, rfl, rfl, fun _ => ?_⟩
      exact (mem_pyRange.mp hb).1
    · exact .err _
  | false => exact .ok ⟨⟨rfl, rfl, rfl, rfl, rfl, rfl, .nil, rfl, rfl, rfl⟩, rfl, rfl, rfl, fun h => by cases h⟩

theorem anytimeInit_pair (shuffle : List Int → List Int) (hsh : ∀ l, ∀ d ∈ shuffle l, d ∈ l) (m : Int) {query query' : Option (List (List (Fl K)))} (buffer : Option Int)
    (hs : series'.length = series.length ∧ Anytime.npCols series' = Anytime.npCols series)
    (hq : (query.getD series).length = (query'.getD series').length ∧ Anytime.npCols (query'.getD series') = Anytime.npCols (query.getD series)) (hj : query'.isNone = query.isNone) :
    Alike (fun x y => AnytimePair (Anytime.npCols (query.getD series) - m + 1) (Anytime.npCols series - m + 1) series series' (query.getD series) (query'.getD series') R x y ∧
        x.base.selfJoin = query.isNone ∧ x.base.m = m)
      (Anytime.init shuffle m series query buffer : Except PyErr (Anytime G C K)) (Anytime.init shuffle m series' query' buffer : Except PyErr (Anytime G' C K)) := by
  unfold Anytime.init
  simp only [hj, hs.1, ← hq.1, hs.2, hq.2]
  split
  · exact .err _
  · refine (calcInit_pair (R := R) _ _ _ _ _ _).bind fun a b h => ?_
    obtain ⟨h, h1, h2, h3, h4⟩ := h
    refine .ok ⟨⟨h, rfl, rfl, rfl, rfl, ?_, ?_, rfl, rfl, ?_, ?_⟩, h1, h2⟩
    · dsimp only
      unfold Anytime.diagonals
      rw [h.selfJoin, h.buffer, h.numSeries, h.numQuery]
    · dsimp only
      rw [h.selfJoin, h.buffer, h.numSeries, h.numQuery]
    · dsimp only
      rw [h3]
      cases query with
      | none => rfl
      | some q => rfl
    · intro d hd
      have hd' : d ∈ Anytime.diagonals a := hsh _ _ hd
      clear hd
      unfold Anytime.diagonals at hd'
      cases query with
      | none =>
        rw [h1] at hd'
        have := h4 rfl
        have hd := mem_pyRange.mp hd'
        have hw := h.width
        simp only [Option.getD_none] at hw ⊢
        omega
      | some q =>
        rw [h1] at hd'
        have hd := mem_pyRange.mp hd'
        have hw := h.width
        simp only [Option.isNone_some, Bool.false_eq_true, if_false] at h3
        simp only [Option.getD_some] at hw h3 ⊢
        omega

theorem pyGet_nat_pair {A B : Type} {S : A → B → Prop} (a : List A) (b : List B) (hl : b.length = a.length) (i : Nat) (hS : ∀ x y, a[i]? = some x → b[i]? = some y → S x y) :
    Alike S (pyGet a (i : Int)) (pyGet b (i : Int)) := by
  unfold pyGet
  have e : ¬ ((i : Int) < 0) := by omega
  simp only [if_neg e, Int.toNat_natCast]
  cases e1 : a[i]? with
  | none =>
    have : b[i]? = none := by rw [List.getElem?_eq_none_iff] at e1 ⊢; rw [hl]; exact e1
    rw [this]
    exact .err _
  | some x =>
    cases e2 : b[i]? with
    | none =>
      rw [List.getElem?_eq_none_iff, hl, ← List.getElem?_eq_none_iff, e1] at e2
      cases e2
    | some y => exact .ok (hS x y e1 e2)

/-- What `prepare` is asked for with the data of channel `ch` gives related states. -/
def PreparedAlike (m : Int) (series series' qry qry' : List (List (Fl K))) (selfJoin : Bool) (R : Nat → G → G' → Prop) (ch : Nat)
    (f : Int → List (Fl K) → Option (List (Fl K)) → Except PyErr G) (f' : Int → List (Fl K) → Option (List (Fl K)) → Except PyErr G') : Prop :=
  ∀ s s' q q', series[ch]? = some s → series'[ch]? = some s' → qry[ch]? = some q → qry'[ch]? = some q' →
    Alike (R ch) (f m s (if selfJoin then none else some q)) (f' m s' (if selfJoin then none else some q'))

theorem anytimeGenerators_pair (m : Int) (selfJoin : Bool) (hs : series'.length = series.length) (hq : qry'.length = qry.length) (hsq : selfJoin = true → qry.length = series.length) :
    ∀ {gens : List ((Int → List (Fl K) → Option (List (Fl K)) → Except PyErr G) × Nat)}
    {gens' : List ((Int → List (Fl K) → Option (List (Fl K)) → Except PyErr G') × Nat)},
    List.Forall₂ (fun x y => y.2 = x.2 ∧ PreparedAlike m series series' qry qry' selfJoin R x.2 x.1 y.1) gens gens' →
    ∀ {st : Anytime G C K} {st' : Anytime G' C K}, AnytimePair h w series series' qry qry' R st st' ∧ st.base.selfJoin = selfJoin ∧ st.base.m = m →
      Alike (AnytimePair h w series series' qry qry' R) (Anytime.addGenerators gens st) (Anytime.addGenerators gens' st')
  | _, _, .nil, _, _, h => .ok h.1
  | x :: gens, y :: gens', .cons hx hxs, st, st', h => by
    unfold Anytime.addGenerators
    refine Alike.bind (R := fun a b => AnytimePair _ _ series series' qry qry' R a b ∧ a.base.selfJoin = selfJoin ∧ a.base.m = m) ?_ fun a b hab =>
      anytimeGenerators_pair m selfJoin hs hq hsq hxs hab
    obtain ⟨h, hj, hm⟩ := h
    have hj' : st'.base.selfJoin = selfJoin := h.base.selfJoin.trans hj
    have hm' : st'.base.m = m := h.base.m.trans hm
    have fin : ∀ g g', R x.2 g g' → (AnytimePair _ _ series series' qry qry' R
        { st with base := { st.base with gens := st.base.gens ++ [(g, (x.2 : Int).toNat)] } } { st' with base := { st'.base with gens := st'.base.gens ++ [(g', (x.2 : Int).toNat)] } }) ∧
          st.base.selfJoin = selfJoin ∧ st.base.m = m :=
      fun g g' hgg => ⟨⟨⟨h.base.selfJoin, h.base.m, h.base.nDim, h.base.numSeries, h.base.numQuery, h.base.buffer,
        List.rel_append h.base.gens (.cons ⟨rfl, by simpa using hgg⟩ .nil), h.base.cons, h.base.lastCol, h.base.width⟩, h.series, h.series', h.query, h.query', h.order, h.total, h.next,
        h.calculated, h.height, h.inside⟩, hj, hm⟩
    unfold Anytime.addGenerator
    rw [hx.1, h.base.nDim, h.series, h.series', h.query, h.query', hj, hj', hm, hm']
    split
    · exact .err _
    · refine (pyGet_nat_pair (S := fun s s' => series[x.2]? = some s ∧ series'[x.2]? = some s') series series' hs x.2 fun _ _ h1 h2 => ⟨h1, h2⟩).bind fun s s' hss => ?_
      obtain ⟨hl, -⟩ := List.getElem?_eq_some_iff.mp hss.1
      have hp := hx.2 s s'
      dsimp only
      cases hsj : selfJoin with
      | true =>
        have hsq := hsq hsj
        have := hp _ _ hss.1 hss.2 (List.getElem?_eq_getElem (by omega)) (List.getElem?_eq_getElem (by omega))
        rw [hsj] at this
        simp only [if_true] at this ⊢
        exact this.bind fun g g' hgg => .ok (by simpa only [h.base.nDim, h.series, h.series', h.query, h.query', hj, hj', hm, hm', hsj] using fin g g' hgg)
      | false =>
        simp only [Bool.false_eq_true, if_false]
        refine (pyGet_nat_pair (S := fun s s' => qry[x.2]? = some s ∧ qry'[x.2]? = some s') qry qry' hq x.2 fun _ _ h1 h2 => ⟨h1, h2⟩).bind fun q q' hqq => ?_
        have := hp q q' hss.1 hss.2 hqq.1 hqq.2
        rw [hsj] at this
        simp only [Bool.false_eq_true, if_false] at this
        exact this.bind fun g g' hgg => .ok (by simpa only [h.base.nDim, h.series, h.series', h.query, h.query', hj, hj', hm, hm', hsj] using fin g g' hgg)

theorem addConsumer_numQuery {st st' : Calc G C} {ids : List Nat} {c : C} (h : st.addConsumer ops ids c = .ok st') : st'.numQuery = st.numQuery := by
  unfold Calc.addConsumer at h
  obtain ⟨x, -, h⟩ := bind_ok_iff.mp h
  cases h
  rfl

theorem anytimeConsumers_pair (hc : SameConsumers ops ops') : ∀ (cs : List (C × List Nat)) {st : Anytime G C K} {st' : Anytime G' C K}, AnytimePair h w series series' qry qry' R st st' →
    Alike (AnytimePair h w series series' qry qry' R) (Anytime.addAllConsumers ops cs st) (Anytime.addAllConsumers ops' cs st')
  | [], _, _, h => .ok h
  | c :: cs, st, st', h => by
    unfold Anytime.addAllConsumers
    refine Alike.bind (R := AnytimePair _ _ series series' qry qry' R) ?_ fun a b hab => anytimeConsumers_pair hc cs hab
    unfold Anytime.addConsumer
    have := addConsumer_pair hc c.2 c.1 h.base
    rcases this with ⟨e, e1, e2⟩ | ⟨a, b, e1, e2, hab⟩
    · rw [e1, e2]; exact .err e
    · rw [e1, e2]
      exact .ok ⟨hab, h.series, h.series', h.query, h.query', h.order, h.total, h.next, h.calculated, (addConsumer_numQuery e1).trans h.height, h.inside⟩

variable (hg : Answers h w R ops.gen ops'.gen) (hc : SameConsumers ops ops')
include hg hc

theorem diagonalStep_pair (needed : List Nat) (d : Int) (hd : -h < d ∧ d < w) {st : Anytime G C K} {st' : Anytime G' C K} (hp : AnytimePair h w series series' qry qry' R st st') :
    Alike (AnytimePair h w series series' qry qry' R) (st.diagonalStep ops needed d) (st'.diagonalStep ops' needed d) := by
  unfold Anytime.diagonalStep
  rw [hp.base.numQuery, hp.base.numSeries, ← hp.base.gens.length_eq, hp.base.cons, hp.base.selfJoin, hp.calculated, hp.next]
  refine (genStep_pair (fun ch g g' hr => hg.diagonal ch g g' hr d hd.1 hd.2) _ needed _ _ _ hp.base.gens).bind fun r r' hr => ?_
  obtain ⟨gens, rows⟩ := r
  obtain ⟨gens', rows'⟩ := r'
  obtain ⟨h1, rfl⟩ := hr
  have : Anytime.deliverDiagonal ops' = Anytime.deliverDiagonal ops := by
    funext a b c e
    unfold Anytime.deliverDiagonal
    rw [hc.diagonal]
  dsimp only
  rw [this]
  refine (Alike.refl _).bind fun cons cons' e => ?_
  subst e
  exact .ok ⟨⟨hp.base.selfJoin, hp.base.m, hp.base.nDim, hp.base.numSeries, hp.base.numQuery, hp.base.buffer, h1, rfl, hp.base.lastCol, hp.base.width⟩, hp.series, hp.series', hp.query, hp.query', hp.order,
    hp.total, rfl, rfl, hp.height, hp.inside⟩

theorem diagonalLoop_pair (needed : List Nat) (ints : Nat → Bool) (v : Int) : ∀ (l : List Int) {st : Anytime G C K} {st' : Anytime G' C K}, (∀ d ∈ l, -h < d ∧ d < w) →
    AnytimePair h w series series' qry qry' R st st' →
    Alike (AnytimePair h w series series' qry qry' R) (Anytime.diagonalLoop ops needed ints v l st) (Anytime.diagonalLoop ops' needed ints v l st')
  | [], st, st', _, h => by
    unfold Anytime.diagonalLoop
    rw [h.calculated, h.next]
    split
    · exact .err _
    · exact .ok h
  | d :: l, st, st', hl, h => by
    unfold Anytime.diagonalLoop
    rw [h.calculated, h.next]
    split
    · exact (diagonalStep_pair hg hc needed d (hl d (by simp)) h).bind fun a b hab => diagonalLoop_pair needed ints v l (fun d hd => hl d (List.mem_cons_of_mem _ hd)) hab
    · exact .ok h

omit hg hc in
theorem columnLoop_m (needed : List Nat) (maxRow : Nat) (ints : Int → Bool) : ∀ (n : Nat) (column : Int) (s s' : Calc G C × List (List (Fl K))),
    Calc.columnLoop ops needed maxRow ints n column s = .ok s' → s'.1.m = s.1.m ∧ s'.1.selfJoin = s.1.selfJoin
  | 0, _, s, s', h => by cases h; exact ⟨rfl, rfl⟩
  | n + 1, column, s, s', h => by
    unfold Calc.columnLoop at h
    split at h
    · cases h; exact ⟨rfl, rfl⟩
    · obtain ⟨x, h1, h2⟩ := bind_ok_iff.mp h
      have ih := columnLoop_m needed maxRow ints n _ _ _ h2
      rw [ih.1, ih.2]
      unfold Calc.columnStep at h1
      obtain ⟨y, -, h1⟩ := bind_ok_iff.mp h1
      obtain ⟨z, -, h1⟩ := bind_ok_iff.mp h1
      cases h1
      exact ⟨rfl, rfl⟩

omit hg hc in
theorem columnLoop_numQuery (needed : List Nat) (maxRow : Nat) (ints : Int → Bool) : ∀ (n : Nat) (column : Int) (s s' : Calc G C × List (List (Fl K))),
    Calc.columnLoop ops needed maxRow ints n column s = .ok s' → s'.1.numQuery = s.1.numQuery
  | 0, _, s, s', h => by cases h; rfl
  | n + 1, column, s, s', h => by
    unfold Calc.columnLoop at h
    split at h
    · cases h; rfl
    · obtain ⟨x, h1, h2⟩ := bind_ok_iff.mp h
      rw [columnLoop_numQuery needed maxRow ints n _ _ _ h2]
      unfold Calc.columnStep at h1
      obtain ⟨y, -, h1⟩ := bind_ok_iff.mp h1
      obtain ⟨z, -, h1⟩ := bind_ok_iff.mp h1
      cases h1
      rfl

theorem anytimeStep_pair (needed : List Nat) (o : Anytime.Op) {st : Anytime G C K} {st' : Anytime G' C K} (hp : AnytimePair h w series series' qry qry' R st st') :
    Alike (AnytimePair h w series series' qry qry' R) (st.step ops needed o) (st'.step ops' needed o) := by
  cases o with
  | diagonals ints p =>
    show Alike _ (st.calculateDiagonals ops needed ints p) (st'.calculateDiagonals ops' needed ints p)
    unfold Anytime.calculateDiagonals
    rw [← hp.base.gens.length_eq, hp.base.numQuery, hp.base.numSeries, hp.total, hp.order, hp.next]
    refine (Alike.refl _).bind fun _ _ _ => (Alike.refl _).bind fun v v' e => ?_
    subst e
    exact diagonalLoop_pair hg hc needed ints v _ (fun d hd => hp.inside d (List.mem_of_mem_drop hd)) hp
  | columns ints start upto =>
    show Alike _ (st.calculateColumns ops needed ints start upto) (st'.calculateColumns ops' needed ints start upto)
    unfold Anytime.calculateColumns
    rw [hp.base.numQuery, hp.base.numSeries]
    rcases calculateColumns_pair hc st.base.numSeries st.base.numQuery (fun ch g g' hr c h1 h2 => hg.column ch g g' hr c h1 (by rw [← hp.base.width]; exact h2)) needed ints start upto hp.base with
      ⟨e, e1, e2⟩ | ⟨a, b, e1, e2, hab⟩
    · rw [e1, e2]; exact .err e
    · rw [e1, e2]
      refine .ok ⟨hab, hp.series, hp.series', hp.query, hp.query', hp.order, hp.total, hp.next, hp.calculated, ?_, hp.inside⟩
      refine Eq.trans ?_ hp.height
      unfold Calc.calculateColumns at e1
      obtain ⟨_, -, e1⟩ := bind_ok_iff.mp e1
      obtain ⟨_, -, e1⟩ := bind_ok_iff.mp e1
      obtain ⟨_, -, e1⟩ := bind_ok_iff.mp e1
      obtain ⟨_, e3, e1⟩ := bind_ok_iff.mp e1
      cases e1
      exact columnLoop_numQuery needed _ ints _ _ _ _ e3

theorem anytimeRun_pair (needed : List Nat) : ∀ (os : List Anytime.Op) {st : Anytime G C K} {st' : Anytime G' C K}, AnytimePair h w series series' qry qry' R st st' →
    Alike (AnytimePair h w series series' qry qry' R) (Anytime.run ops needed os st) (Anytime.run ops' needed os st')
  | [], _, _, h => .ok h
  | o :: os, st, st', h => by
    unfold Anytime.run
    exact (anytimeStep_pair hg hc needed o h).bind fun a b hab => anytimeRun_pair needed os hab
end

/-! ### `StreamingCalculator` -/

/-- Arrays with as many rows, all rows of `n` points, and row `i` of the one related to row `i` of the other by `T i`. -/
structure RowsPair (T : Nat → List (Fl K) → List (Fl K) → Prop) (n : Nat) (a b : List (List (Fl K))) : Prop where
  rows : b.length = a.length
  cols : ∀ x ∈ a, x.length = n
  row : ∀ (i : Nat) (x y : List (Fl K)), a[i]? = some x → b[i]? = some y → T i x y

/-- The same for the arguments of `append_series` and `append_query`. -/
def ArraysPair (T : Nat → List (Fl K) → List (Fl K) → Prop) : NDArray K → NDArray K → Prop
  | .d1 v, .d1 w => RowsPair T 1 (v.map fun x => [x]) (w.map fun x => [x])
  | .d2 a c, .d2 b c' => c = c' ∧ RowsPair T c a b
  | .higher, .higher => True
  | _, _ => False

/-- The same call with related data. -/
def CallsPair (T : Nat → List (Fl K) → List (Fl K) → Prop) : Streaming.Op K → Streaming.Op K → Prop
  | .series v, .series w => ArraysPair T v w
  | .query v, .query w => ArraysPair T v w
  | .columns ints n, .columns ints' n' => ints = ints' ∧ n = n'
  | _, _ => False

/-- The number of points in the argument of an append. -/
def NDArray.points : NDArray K → Nat
  | .d1 _ => 1
  | .d2 _ c => c
  | .higher => 0

/-- `Ready` holds for the numbers of points of series and query whenever columns are to be calculated. -/
def ReadyCalls (Ready : Int → Int → Prop) : Int → Int → List (Streaming.Op K) → Prop
  | _, _, [] => True
  | ns, nq, .series v :: l => ReadyCalls Ready (ns + v.points) nq l
  | ns, nq, .query v :: l => ReadyCalls Ready ns (nq + v.points) l
  | ns, nq, .columns _ _ :: l => Ready ns nq ∧ ReadyCalls Ready ns nq l

/-- Calculators that differ in the generators only. -/
structure StreamingPair (m w : Int) (R : Int → Int → Nat → G → G' → Prop) (st : Streaming G C) (st' : Streaming G' C) : Prop where
  base : CalcPair w (R st.streamedSeries st.streamedQuery) st.base st'.base
  streamedSeries : st'.streamedSeries = st.streamedSeries
  streamedQuery : st'.streamedQuery = st.streamedQuery
  length : st.base.m = m
  asked : st.base.selfJoin = false → 0 ≤ st.streamedQuery

section
variable {m w : Int} {Ready : Int → Int → Prop} {T : Nat → List (Fl K) → List (Fl K) → Prop} {R : Int → Int → Nat → G → G' → Prop} {ops : Ops G C K} {ops' : Ops G' C K}

/-- The number of points of the query with which a calculator starts, calculator.py:296-305. -/
def startQuery (queryWindow : Option Int) : Int := if queryWindow.isNone then -1 else 0

/-- What is kept while generators and consumers are added. -/
structure StartPair (m sw : Int) (qw : Option Int) (R : Int → Int → Nat → G → G' → Prop) (st : Streaming G C) (st' : Streaming G' C) : Prop where
  pair : StreamingPair m (sw - m + 1) R st st'
  selfJoin : st.base.selfJoin = qw.isNone
  query : ∀ q, qw = some q → st.base.numQuery = q - m + 1
  series0 : st.streamedSeries = 0
  query0 : st.streamedQuery = startQuery qw

theorem streamingInit_pair (m sw : Int) (qw : Option Int) (nDim : Nat) (buffer : Option Int) :
    Alike (StartPair m sw qw R) (Streaming.init m sw qw nDim buffer : Except PyErr (Streaming G C)) (Streaming.init m sw qw nDim buffer : Except PyErr (Streaming G' C)) := by
  unfold Streaming.init
  cases qw with
  | none => exact (calcInit_pair (R := R 0 (-1)) _ _ _ _ _ _).bind fun a b h => .ok ⟨⟨h.1, rfl, rfl, h.2.2.1, fun h' => absurd (h.2.1.symm.trans h') (by simp)⟩, h.2.1, (fun q hq => by cases hq), rfl, rfl⟩
  | some q => exact (calcInit_pair (R := R 0 0) _ _ _ _ _ _).bind fun a b h => .ok ⟨⟨h.1, rfl, rfl, h.2.2.1, fun _ => le_rfl⟩, h.2.1, (fun q' hq => by cases hq; simpa using h.2.2.2.1), rfl, rfl⟩

theorem streamingGenerators_pair (sw : Int) (qw : Option Int) : ∀ {gens : List ((Int → Int → Option Int → Except PyErr G) × Nat)}
    {gens' : List ((Int → Int → Option Int → Except PyErr G') × Nat)},
    List.Forall₂ (fun x y => y.2 = x.2 ∧ Alike (R 0 (startQuery qw) x.2) (x.1 m sw qw) (y.1 m sw qw)) gens gens' →
    ∀ {st : Streaming G C} {st' : Streaming G' C}, StartPair m sw qw R st st' → Alike (StartPair m sw qw R) (Streaming.addGenerators gens st) (Streaming.addGenerators gens' st')
  | _, _, .nil, _, _, h => .ok h
  | x :: gens, y :: gens', .cons hx hs, st, st', h => by
    unfold Streaming.addGenerators
    refine Alike.bind (R := StartPair m sw qw R) ?_ fun a b hab => streamingGenerators_pair sw qw hs hab
    obtain ⟨h, hj, hq, h0, hq0⟩ := h
    have hw : st.base.numSeries + m - 1 = sw := by rw [h.base.width]; omega
    have hqw : (if st.base.selfJoin then none else some (st.base.numQuery + m - 1)) = qw := by
      rw [hj]
      cases qw with
      | none => rfl
      | some q => simp only [Option.isNone_some, Bool.false_eq_true, if_false, hq q rfl]; congr 1; omega
    unfold Streaming.addGenerator
    rw [hx.1, h.base.nDim, h.base.selfJoin, h.base.m, h.base.numSeries, h.base.numQuery, h.length, hw, hqw]
    split
    · exact .err _
    · refine hx.2.bind fun g g' hgg => ?_
      have e : st.base.m = m := h.length
      refine .ok ⟨⟨⟨h.base.selfJoin, h.base.m, h.base.nDim, h.base.numSeries, h.base.numQuery, h.base.buffer, ?_, h.base.cons, h.base.lastCol, h.base.width⟩, h.streamedSeries, h.streamedQuery, h.length, h.asked⟩, hj, hq, h0, hq0⟩
      exact List.rel_append h.base.gens (.cons ⟨rfl, by simpa [h0, hq0] using hgg⟩ .nil)

theorem streamingConsumers_pair (hc : SameConsumers ops ops') : ∀ (cs : List (C × List Nat)) {st : Streaming G C} {st' : Streaming G' C}, StreamingPair m w R st st' →
    Alike (fun x y => StreamingPair m w R x y ∧ x.streamedSeries = st.streamedSeries ∧ x.streamedQuery = st.streamedQuery) (Streaming.addConsumers ops cs st) (Streaming.addConsumers ops' cs st')
  | [], _, _, h => .ok ⟨h, rfl, rfl⟩
  | c :: cs, st, st', h => by
    unfold Streaming.addConsumers
    refine Alike.bind (R := fun x y => StreamingPair m w R x y ∧ x.streamedSeries = st.streamedSeries ∧ x.streamedQuery = st.streamedQuery) ?_ fun a b hab => ?_
    · unfold Streaming.addConsumer
      rcases addConsumer_pair hc c.2 c.1 h.base with ⟨e, e1, e2⟩ | ⟨a, b, e1, e2, hab⟩
      · rw [e1, e2]; exact .err e
      · rw [e1, e2]
        unfold Calc.addConsumer at e1
        obtain ⟨x, -, e1⟩ := bind_ok_iff.mp e1
        cases e1
        exact .ok ⟨⟨hab, h.streamedSeries, h.streamedQuery, h.length, h.asked⟩, rfl, rfl⟩
    · exact (streamingConsumers_pair hc cs hab.1).mono fun x y hxy => ⟨hxy.1, hxy.2.1.trans hab.2.1, hxy.2.2.trans hab.2.2⟩

theorem toRows_pair {v w : NDArray K} (h : ArraysPair T v w) (nDim : Nat) :
    Alike (fun x y => RowsPair T v.points x.1 y.1 ∧ x.2 = v.points ∧ y.2 = x.2) (Streaming.toRows nDim v) (Streaming.toRows nDim w) := by
  cases v with
  | d1 v =>
    cases w with
    | d1 w =>
      have h : RowsPair T 1 _ _ := h
      have hl : w.length = v.length := by simpa using h.rows
      unfold Streaming.toRows
      dsimp only
      rw [hl]
      split
      · exact .ok ⟨h, rfl, rfl⟩
      · exact .err _
    | d2 => exact h.elim
    | higher => exact h.elim
  | d2 a c =>
    cases w with
    | d2 b c' =>
      obtain ⟨rfl, h⟩ : c = c' ∧ RowsPair T c a b := h
      unfold Streaming.toRows
      dsimp only
      rw [h.rows]
      split
      · exact .err _
      · exact .ok ⟨h, rfl, rfl⟩
    | d1 => exact h.elim
    | higher => exact h.elim
  | higher =>
    cases w with
    | higher => exact .err _
    | d1 => exact h.elim
    | d2 => exact h.elim

theorem appendGens_pair {Q Q' : Nat → G → G' → Prop} {n : Nat} {f : G → List (Fl K) → Except PyErr G} {f' : G' → List (Fl K) → Except PyErr G'}
    (hf : ∀ ch g g', Q ch g g' → ∀ v w, v.length = n → T ch v w → Alike (Q' ch) (f g v) (f' g' w)) {a b : List (List (Fl K))} (hab : RowsPair T n a b)
    {gens : List (G × Nat)} {gens' : List (G' × Nat)} (h : List.Forall₂ (fun x y => y.2 = x.2 ∧ Q x.2 x.1 y.1) gens gens') :
    Alike (List.Forall₂ (fun x y => y.2 = x.2 ∧ Q' x.2 x.1 y.1)) (Streaming.appendGens f a gens) (Streaming.appendGens f' b gens') := by
  unfold Streaming.appendGens
  refine Alike.mapM (R := fun x y => y.2 = x.2 ∧ Q x.2 x.1 y.1) (fun x y hxy => ?_) h
  rw [hxy.1]
  exact (pyGet_nat_pair (S := fun v w => v.length = n ∧ T x.2 v w) a b hab.rows x.2 fun v w h1 h2 => ⟨hab.cols v (List.mem_of_getElem? h1), hab.row _ _ _ h1 h2⟩).bind fun v w hv =>
    (hf _ _ _ hxy.2 v w hv.1 hv.2).bind fun g g' hg => .ok ⟨rfl, hg⟩

variable (hg : Mimics m w Ready T R ops.gen ops'.gen) (hc : SameConsumers ops ops')
include hg hc

theorem streamingSeries_pair {v v' : NDArray K} (ho : ArraysPair T v v') {st : Streaming G C} {st' : Streaming G' C} (h : StreamingPair m w R st st') :
    Alike (fun x y => StreamingPair m w R x y ∧ x.streamedSeries = st.streamedSeries + v.points ∧ x.streamedQuery = st.streamedQuery) (st.appendSeries ops v) (st'.appendSeries ops' v') := by
  unfold Streaming.appendSeries
  rw [h.base.nDim]
  refine (toRows_pair ho st.base.nDim).bind fun r r' hr => ?_
  obtain ⟨rows, n⟩ := r
  obtain ⟨rows', n'⟩ := r'
  obtain ⟨hr, rfl, rfl⟩ : RowsPair T v.points rows rows' ∧ n = v.points ∧ n' = n := hr
  refine (appendGens_pair (Q' := R (st.streamedSeries + v.points) st.streamedQuery) (fun ch g g' hR v w hv hT => hv ▸ hg.series _ _ ch g g' hR v w hT) hr h.base.gens).bind fun gs gs' hgs => ?_
  have hb : Streaming.shiftBoth ops' = Streaming.shiftBoth ops := by
    funext a b c
    unfold Streaming.shiftBoth
    rw [hc.series, hc.query]
  dsimp only
  rw [h.base.numSeries, h.base.m, h.streamedSeries, h.base.selfJoin, h.base.cons, h.base.lastCol, hb]
  split
  · refine (Alike.refl _).bind fun cons cons' e => ?_
    subst e
    exact .ok ⟨⟨⟨rfl, rfl, h.base.nDim, rfl, h.base.numQuery, h.base.buffer, hgs, rfl, rfl, h.base.width⟩, rfl, h.streamedQuery, h.length, h.asked⟩, rfl, rfl⟩
  · exact .ok ⟨⟨⟨rfl, rfl, h.base.nDim, rfl, h.base.numQuery, h.base.buffer, hgs, rfl, rfl, h.base.width⟩, rfl, h.streamedQuery, h.length, h.asked⟩, rfl, rfl⟩

theorem streamingQuery_pair {v v' : NDArray K} (ho : ArraysPair T v v') {st : Streaming G C} {st' : Streaming G' C} (h : StreamingPair m w R st st') :
    Alike (fun x y => StreamingPair m w R x y ∧ x.streamedSeries = st.streamedSeries ∧ x.streamedQuery = st.streamedQuery + v.points) (st.appendQuery ops v) (st'.appendQuery ops' v') := by
  unfold Streaming.appendQuery
  rw [h.base.nDim, h.base.selfJoin]
  split
  · exact .err _
  rename_i hj
  have h0 := h.asked (by simpa using hj)
  refine (toRows_pair ho st.base.nDim).bind fun r r' hr => ?_
  obtain ⟨rows, n⟩ := r
  obtain ⟨rows', n'⟩ := r'
  obtain ⟨hr, rfl, rfl⟩ : RowsPair T v.points rows rows' ∧ n = v.points ∧ n' = n := hr
  refine (appendGens_pair (Q' := R st.streamedSeries (st.streamedQuery + v.points)) (fun ch g g' hR v w hv hT => hv ▸ hg.query _ _ ch g g' h0 hR v w hT) hr h.base.gens).bind fun gs gs' hgs => ?_
  dsimp only
  rw [h.base.numQuery, h.base.m, h.streamedQuery, h.base.cons, hc.query]
  split
  · refine (Alike.refl _).bind fun cons cons' e => ?_
    subst e
    exact .ok ⟨⟨⟨h.base.selfJoin, rfl, h.base.nDim, h.base.numSeries, rfl, h.base.buffer, hgs, rfl, h.base.lastCol, h.base.width⟩, h.streamedSeries, rfl, h.length, fun _ => by dsimp only; omega⟩, rfl, rfl⟩
  · exact .ok ⟨⟨⟨h.base.selfJoin, rfl, h.base.nDim, h.base.numSeries, rfl, h.base.buffer, hgs, rfl, h.base.lastCol, h.base.width⟩, h.streamedSeries, rfl, h.length, fun _ => by dsimp only; omega⟩, rfl, rfl⟩

theorem streamingColumns_pair (needed : List Nat) (ints : Int → Bool) (n : PyNum) {st : Streaming G C} {st' : Streaming G' C} (h : StreamingPair m w R st st')
    (hr : Ready st.streamedSeries st.streamedQuery) :
    Alike (fun x y => StreamingPair m w R x y ∧ x.streamedSeries = st.streamedSeries ∧ x.streamedQuery = st.streamedQuery)
      (st.calculateColumns ops needed ints none n) (st'.calculateColumns ops' needed ints none n) := by
  unfold Streaming.calculateColumns
  have e1 : st'.maxColumn = st.maxColumn := by unfold Streaming.maxColumn; rw [h.streamedSeries, h.base.m, h.base.numSeries]
  have e2 : st'.maxRow = st.maxRow := by unfold Streaming.maxRow; rw [e1, h.base.selfJoin, h.streamedQuery, h.base.m, h.base.numQuery]
  rw [e1, e2]
  have hmax : st.maxColumn ≤ w ∧ (0 < st.maxColumn → st.maxColumn + m ≤ st.streamedSeries + 1) := by
    unfold Streaming.maxColumn
    rw [h.base.width, h.length]
    omega
  rcases calculateColumns_pair hc st.maxColumn st.maxRow (fun ch g g' hR c h1 h2 => hg.column _ _ ch g g' hr hR c h1 (by omega) (by omega)) needed ints none n h.base with
    ⟨e, e3, e4⟩ | ⟨a, b, e3, e4, hab⟩
  · rw [e3, e4]; exact .err e
  · rw [e3, e4]
    have key : a.m = st.base.m ∧ a.selfJoin = st.base.selfJoin := ?_
    · exact .ok ⟨⟨hab, h.streamedSeries, h.streamedQuery, key.1.trans h.length, fun h' => h.asked (key.2.symm.trans h')⟩, rfl, rfl⟩
    clear hab
    unfold Calc.calculateColumns at e3
    obtain ⟨_, -, e3⟩ := bind_ok_iff.mp e3
    obtain ⟨_, -, e3⟩ := bind_ok_iff.mp e3
    obtain ⟨_, -, e3⟩ := bind_ok_iff.mp e3
    obtain ⟨_, e5, e3⟩ := bind_ok_iff.mp e3
    cases e3
    exact columnLoop_m needed _ ints _ _ _ _ e5

theorem streamingRun_pair (needed : List Nat) : ∀ {os os' : List (Streaming.Op K)}, List.Forall₂ (CallsPair T) os os' → ∀ {st : Streaming G C} {st' : Streaming G' C},
    StreamingPair m w R st st' → ReadyCalls Ready st.streamedSeries st.streamedQuery os →
    Alike (StreamingPair m w R) (Streaming.run ops needed os st) (Streaming.run ops' needed os' st')
  | _, _, .nil, _, _, h, _ => .ok h
  | o :: os, o' :: os', .cons ho hos, st, st', h, hr => by
    unfold Streaming.run
    cases o with
    | series v =>
      cases o' with
      | series w =>
        exact (streamingSeries_pair hg hc (show ArraysPair T v w from ho) h).bind fun a b hab => streamingRun_pair needed hos hab.1 (by
          rw [hab.2.1, hab.2.2]; exact hr)
      | query => exact ho.elim
      | columns => exact ho.elim
    | query v =>
      cases o' with
      | query w =>
        exact (streamingQuery_pair hg hc (show ArraysPair T v w from ho) h).bind fun a b hab => streamingRun_pair needed hos hab.1 (by
          rw [hab.2.1, hab.2.2]; exact hr)
      | series => exact ho.elim
      | columns => exact ho.elim
    | columns ints n =>
      cases o' with
      | columns ints' n' =>
        obtain ⟨rfl, rfl⟩ : ints = ints' ∧ n = n' := ho
        exact (streamingColumns_pair hg hc needed ints n h hr.1).bind fun a b hab => streamingRun_pair needed hos hab.1 (by
          rw [hab.2.1, hab.2.2]; exact hr.2)
      | series => exact ho.elim
      | query => exact ho.elim
end

end Verif
