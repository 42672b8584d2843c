import Verif.Props.FilterClear
import Verif.Props.Substitution
import Verif.Model.Filtered
import Verif.Lemmas.ColumnSizes

/-!
# C106 for calculators: filters that mark nothing change no result
-/

namespace Verif
open Spec
variable {G C K : Type} [Zero K]

/-! ### Batch -/

/-- `prepare` of a generator, wrapped in a `FilterGenerator` or not. -/
def wrapBatch (prep : Int → List (Fl K) → Option (List (Fl K)) → Except PyErr G) : Option (Fl K → Bool) → Int → List (Fl K) → Option (List (Fl K)) → Except PyErr (G ⊕ Filter.Batch G)
  | none, m, s, q => (prep m s q).map .inl
  | some p, m, s, q => (Filter.prepare prep (fun l _ => l.map p) m.toNat s q).map .inr

/-- Columns and diagonals have as many entries as in the distance matrix. -/
structure SizedBatch (ops : GenOps G K) (m ns nq : Nat) (I : Nat → G → Prop) : Prop where
  column : ∀ ch g, I ch g → ∀ (c : Int) g' vs, 0 ≤ c → c + m ≤ ns → ops.calcColumn g c = .ok (g', vs) → I ch g' ∧ vs.length = nq + 1 - m
  diagonal : ∀ ch g, I ch g → ∀ (d : Int) g' vs, -(nq : Int) + m ≤ d → d + m ≤ ns → ops.calcDiagonal g d = .ok (g', vs) → I ch g' ∧ vs.length = diagEntries m nq ns d

/-- A filter that marked nothing of `s` and `q`. -/
structure ClearMasks (m ns nq : Nat) (b : Filter.Batch G) : Prop where
  masks : ∃ (p : Fl K → Bool) (s q : List (Fl K)), s.length = ns ∧ q.length = nq ∧ (∀ x ∈ s, p x = false) ∧ (∀ x ∈ q, p x = false) ∧
    b.sMask = Filter.maskOf p m s ∧ b.qMask = Filter.maskOf p m q

/-- A generator and the same one, wrapped or not. -/
def WrappedBatch (K : Type) (m ns nq : Nat) (I : Nat → G → Prop) (ch : Nat) (g : G) (g' : G ⊕ Filter.Batch G) : Prop :=
  I ch g ∧ (g' = .inl g ∨ ∃ b, g' = .inr b ∧ b.gen = g ∧ ClearMasks (K := K) m ns nq b)

omit [Zero K] in
theorem wrapped_answers {ops : GenOps G K} {m ns nq : Nat} {I : Nat → G → Prop} (hm : 0 < m) (hns : m ≤ ns) (hnq : m ≤ nq) (hI : SizedBatch ops m ns nq I) :
    Answers ((nq : Int) - m + 1) ((ns : Int) - m + 1) (WrappedBatch K m ns nq I) ops (ops.sum (Filter.Batch.ops ops)) where
  column := by
    rintro ch g g' ⟨hi, hg⟩ c hc0 hc1
    rcases hg with rfl | ⟨b, rfl, rfl, ⟨p, s, q, hs, hq, hcs, hcq, h1, h2⟩⟩
    · show Alike _ _ ((ops.calcColumn g c).map fun x => (Sum.inl x.1, x.2))
      cases e : ops.calcColumn g c with
      | error x => exact .err x
      | ok r => exact .ok ⟨⟨(hI.column ch g hi c r.1 r.2 hc0 (by omega) e).1, .inl rfl⟩, rfl⟩
    · show Alike _ _ ((b.calcColumn ops c).map fun x => (Sum.inr x.1, x.2))
      obtain ⟨c, rfl⟩ := Int.eq_ofNat_of_zero_le hc0
      have hget : pyGet b.sMask (c : Int) = .ok false := by
        have hi : hasInvalid p m s c = false := Filter.maskOf_clear (m := m) s hcs _ (List.mem_of_getElem? (i := c) (by rw [Filter.maskOf_getElem?, if_pos (by omega)]))
        rw [pyGet_nat_ok, h1, Filter.maskOf_getElem?, if_pos (by omega), hi]
      unfold Filter.Batch.calcColumn
      simp only [hget, bind, Except.bind, Bool.false_eq_true, if_false]
      cases e : ops.calcColumn b.gen c with
      | error x => exact .err x
      | ok r =>
        obtain ⟨hr, hl⟩ := hI.column ch _ hi c r.1 r.2 hc0 (by omega) e
        dsimp only
        rw [Filter.npMaskFill_clear r.2 b.qMask .pinf (by rw [h2, hl, Filter.maskOf_length, hq]) (by rw [h2]; exact Filter.maskOf_clear q hcq)]
        exact .ok ⟨⟨hr, .inr ⟨_, rfl, rfl, ⟨p, s, q, hs, hq, hcs, hcq, h1, h2⟩⟩⟩, rfl⟩
  diagonal := by
    rintro ch g g' ⟨hi, hg⟩ d hd0 hd1
    rcases hg with rfl | ⟨b, rfl, rfl, ⟨p, s, q, hs, hq, hcs, hcq, h1, h2⟩⟩
    · show Alike _ _ ((ops.calcDiagonal g d).map fun x => (Sum.inl x.1, x.2))
      cases e : ops.calcDiagonal g d with
      | error x => exact .err x
      | ok r => exact .ok ⟨⟨(hI.diagonal ch g hi d r.1 r.2 (by omega) (by omega) e).1, .inl rfl⟩, rfl⟩
    · show Alike _ _ ((b.calcDiagonal ops d).map fun x => (Sum.inr x.1, x.2))
      unfold Filter.Batch.calcDiagonal
      simp only [bind, Except.bind]
      cases e : ops.calcDiagonal b.gen d with
      | error x => exact .err x
      | ok r =>
        obtain ⟨hr, hl⟩ := hI.diagonal ch _ hi d r.1 r.2 (by omega) (by omega) e
        have := Filter.maskDiagonal_clear s q hcs hcq d (m := m) (by rw [hs, hq]; omega) r.2 (by rw [hl, hs, hq])
        rw [← h1, ← h2] at this
        dsimp only
        rw [this]
        exact .ok ⟨⟨hr, .inr ⟨_, rfl, rfl, ⟨p, s, q, hs, hq, hcs, hcq, h1, h2⟩⟩⟩, rfl⟩

theorem Filter.prepare_clear (prep : Int → List (Fl K) → Option (List (Fl K)) → Except PyErr G) (p : Fl K → Bool) (m : Nat) (hm : 0 < m) (s : List (Fl K)) (q : Option (List (Fl K)))
    (hs : m ≤ s.length) (hq : ∀ q', q = some q' → m ≤ q'.length) (hcs : ∀ x ∈ s, p x = false) (hcq : ∀ q', q = some q' → ∀ x ∈ q', p x = false) :
    Filter.prepare prep (fun l _ => l.map p) m s q =
      (prep m s q).map fun g => ⟨g, ((q.getD s).length : Int) - m + 1, Filter.maskOf p m s, Filter.maskOf p m (q.getD s)⟩ := by
  have hcd : ∀ x : List (Fl K), m ≤ x.length → (∀ y ∈ x, p y = false) → Filter.correctData x m (fun l _ => l.map p) = .ok (x, Filter.maskOf p m x) := by
    intro x h1 h2
    unfold Filter.correctData
    simp only [Filter.applyValidation_ok (f := fun l _ => l.map p) (p := p) (fun _ _ => rfl), bind, Except.bind, pure, Except.pure]
    rw [Filter.invalidSubseq_ok _ m hm (by rw [List.length_map]; omega), Filter.maskOf_map]
    simp only [Filter.zeroed_clear x h2]
  have hpq : Filter.prepareQuery m s (Filter.maskOf p m s) (fun l _ => l.map p) q = .ok (q, Filter.maskOf p m (q.getD s), ((q.getD s).length : Int) - m + 1) := by
    cases q with
    | none => rfl
    | some q => simp only [Filter.prepareQuery, hcd q (hq q rfl) (hcq q rfl), bind, Except.bind, pure, Except.pure]; rfl
  unfold Filter.prepare
  simp only [hcd s hs hcs, hpq, bind, Except.bind, pure, Except.pure]
  cases prep m s q <;> rfl

/-- **C106, calculators, batch.** Take any calculator with any generators and any consumers, and wrap some of its generators in `FilterGenerator` objects whose filters mark
none of the data: whatever calls are made, the outcome is the same: the same exception, or all consumers in the same state. (`SizedBatch`: the generators return as many
distances as the distance matrix has in the column or diagonal.) -/
theorem C106_calculator_batch {ops : Ops G C K} {ops' : Ops (G ⊕ Filter.Batch G) C K} (hops : ops'.gen = ops.gen.sum (Filter.Batch.ops ops.gen)) (hc : SameConsumers ops ops')
    (shuffle : List Int → List Int) (hsh : ∀ l, ∀ d ∈ shuffle l, d ∈ l)
    (gens : List ((Int → List (Fl K) → Option (List (Fl K)) → Except PyErr G) × Option (Fl K → Bool) × Nat)) (consumers : List (C × List Nat)) (needed : List Nat) (m : Nat)
    (hm : 0 < m) (series : List (List (Fl K))) (query : Option (List (List (Fl K)))) (buffer : Option Int) (calls : List Anytime.Op) {ns nq : Nat} (hns : m ≤ ns) (hnq : m ≤ nq)
    (hs0 : series ≠ []) (hs : ∀ s ∈ series, s.length = ns) (hq0 : query.getD series ≠ []) (hq : ∀ q ∈ query.getD series, q.length = nq)
    (hclear : ∀ x ∈ gens, ∀ p, x.2.1 = some p → ∀ l, (series[x.2.2]? = some l ∨ (query.getD series)[x.2.2]? = some l) → ∀ y ∈ l, p y = false)
    {I : Nat → G → Prop} (hI : SizedBatch ops.gen m ns nq I)
    (hI0 : ∀ x ∈ gens, ∀ s q g, series[x.2.2]? = some s → (query.getD series)[x.2.2]? = some q → x.1 m s (if query.isNone then none else some q) = .ok g → I x.2.2 g) :
    batchAll ops' shuffle (gens.map fun x => (wrapBatch x.1 x.2.1, x.2.2)) consumers needed m series query buffer calls =
      batchAll ops shuffle (gens.map fun x => (x.1, x.2.2)) consumers needed m series query buffer calls := by
  have e1 : ∀ (a : List (List (Fl K))) (n : Nat), a ≠ [] → (∀ s ∈ a, s.length = n) → Anytime.npCols a = n := by
    intro a n h0 h
    cases a with
    | nil => exact absurd rfl h0
    | cons x a => simp [Anytime.npCols, h x (by simp)]
  refine C109_batch (R := WrappedBatch K m ns nq I) hc shuffle hsh consumers needed m buffer calls ⟨rfl, rfl⟩ ⟨rfl, rfl⟩ rfl ?_ ?_
  · rw [e1 _ _ hs0 hs, e1 _ _ hq0 hq, hops]
    exact wrapped_answers hm hns hnq hI
  · rw [List.forall₂_map_left_iff, List.forall₂_map_right_iff, List.forall₂_same]
    rintro ⟨prep, o, ch⟩ hx
    refine ⟨rfl, fun s s' q q' h1 h2 h3 h4 => ?_⟩
    dsimp only at h1 h2 h3 h4 ⊢
    rw [h1] at h2; rw [h3] at h4
    cases h2; cases h4
    have hi := fun g => hI0 _ hx s q g h1 h3
    dsimp only at hi
    cases o with
    | none =>
      show Alike _ _ ((prep m s _).map Sum.inl)
      cases e : prep m s (if query.isNone then none else some q) with
      | error x => exact .err x
      | ok g => exact .ok ⟨hi g e, .inl rfl⟩
    | some p =>
      have hcs := hclear _ hx p rfl s (.inl h1)
      have hcq := hclear _ hx p rfl q (.inr h3)
      have hls := hs s (List.mem_of_getElem? h1)
      have hlq := hq q (List.mem_of_getElem? h3)
      have hsq : (if query.isNone then none else some q).getD s = q := by
        cases query with
        | none =>
          have : some s = some q := h1.symm.trans h3
          simpa using this
        | some x => rfl
      show Alike _ _ ((Filter.prepare prep (fun l _ => l.map p) (m : Int).toNat s _).map Sum.inr)
      rw [Int.toNat_natCast, Filter.prepare_clear prep p m hm s (if query.isNone then none else some q) (by omega) (by
        intro q' h; split at h
        · cases h
        · cases h; omega) hcs (by
        intro q' h; split at h
        · cases h
        · cases h; exact hcq)]
      cases e : prep m s (if query.isNone then none else some q) with
      | error x => exact .err x
      | ok g => exact .ok ⟨hi g e, .inr ⟨_, rfl, rfl, ⟨p, s, q, hls, hlq, hcs, hcq, rfl, by rw [hsq]⟩⟩⟩

/-- Batch generators of the repository, on finite data. -/
def LibraryBatch (m ns nq : Nat) (M : Option Nat) (_ch : Nat) (g : ColCache ℝ ⊕ ZN) : Prop :=
  ∃ (k : GenKind) (st : GSt ℝ), st.s.length = ns ∧ st.q.length = nq ∧ (∀ t e, st.last = some (t, e) → e = true) ∧ k.NearHolds m ns M g st

theorem library_sizedBatch (memE : Nat → List (Fl ℝ)) (hmemE : ∀ n, (memE n).length = n) (memZ : ZN.Mem) (hmemZ : memZ.Ok) (m ns nq : Nat) (M : Option Nat) (hns : m ≤ ns)
    (hnq : m ≤ nq) : SizedBatch (GenKind.ops memE memZ) m ns nq (LibraryBatch m ns nq M) where
  column := by
    rintro ch g ⟨k, st, h1, h2, h3, h4⟩ c g' vs hc0 hc1 e
    obtain ⟨c, rfl⟩ := Int.eq_ofNat_of_zero_le hc0
    obtain ⟨g1, vs1, e1, e2, -, e3⟩ := (GenKind.nearServes memE hmemE memZ hmemZ m ns M k).column g st c h4 ⟨⟨by omega, by omega⟩, fun t e h => .inl (h3 t e h)⟩
    rw [e1] at e
    cases e
    exact ⟨⟨k, st.step ns M (.column c), h1, h2, (fun t e h => by cases h; rfl), e3⟩, by rw [e2, h2]⟩
  diagonal := by
    rintro ch g ⟨k, st, h1, h2, h3, h4⟩ d g' vs hd0 hd1 e
    obtain ⟨g1, e1, e2⟩ := (GenKind.nearServes memE hmemE memZ hmemZ m ns M k).diag g st d h4 ⟨⟨by omega, by omega, by omega, by omega⟩, trivial⟩
    rw [e1] at e
    cases e
    exact ⟨⟨k, _, h1, h2, h3, e2⟩, by rw [List.length_map, List.length_range, h1, h2]⟩

/-- **C106, calculators, batch, generators of the repository.** Finite data, default filters around any of the generators of a calculator, any consumers and calls. -/
theorem C106_calculator_repository {ops : Ops (ColCache ℝ ⊕ ZN) C ℝ} {ops' : Ops ((ColCache ℝ ⊕ ZN) ⊕ Filter.Batch (ColCache ℝ ⊕ ZN)) C ℝ} (memE : Nat → List (Fl ℝ))
    (hmemE : ∀ n, (memE n).length = n) (memZ : ZN.Mem) (hmemZ : memZ.Ok) (hg : ops.gen = GenKind.ops memE memZ) (hops : ops'.gen = ops.gen.sum (Filter.Batch.ops ops.gen))
    (hc : SameConsumers ops ops') (shuffle : List Int → List Int) (hsh : ∀ l, ∀ d ∈ shuffle l, d ∈ l) (kinds : List (GenKind × Bool × Nat)) (consumers : List (C × List Nat))
    (needed : List Nat) (m : Nat) (hm : 0 < m) (series : List (List ℝ)) (query : Option (List (List ℝ))) (buffer : Option Int) (calls : List Anytime.Op) {ns nq : Nat} (hns : m ≤ ns)
    (hnq : m ≤ nq) (hs0 : series ≠ []) (hs : ∀ s ∈ series, s.length = ns) (hq0 : query.getD series ≠ []) (hq : ∀ q ∈ query.getD series, q.length = nq) :
    batchAll ops' shuffle (kinds.map fun x => (wrapBatch (x.1.prepare memE memZ) (if x.2.1 then some fun y => !y.isFinite else none), x.2.2)) consumers needed m
        (series.map (·.map .fin)) (query.map (·.map (·.map .fin))) buffer calls =
      batchAll ops shuffle (kinds.map fun x => (x.1.prepare memE memZ, x.2.2)) consumers needed m (series.map (·.map .fin)) (query.map (·.map (·.map .fin))) buffer calls := by
  have hqd : (query.map (·.map (·.map Fl.fin))).getD (series.map (·.map .fin)) = (query.getD series).map (·.map .fin) := by cases query <;> rfl
  have := C106_calculator_batch hops hc shuffle hsh (kinds.map fun x => (x.1.prepare memE memZ, (if x.2.1 then some fun y => !y.isFinite else none), x.2.2)) consumers needed m hm
    (series.map (·.map .fin)) (query.map (·.map (·.map .fin))) buffer calls hns hnq (by simpa using hs0) (by
      intro s h; obtain ⟨x, h1, rfl⟩ := List.mem_map.mp h; rw [List.length_map]; exact hs x h1) (by rw [hqd]; simpa using hq0) (by
      rw [hqd]; intro s h; obtain ⟨x, h1, rfl⟩ := List.mem_map.mp h; rw [List.length_map]; exact hq x h1) (by
      rw [hqd]
      rintro x hx p hp l hl y hy
      obtain ⟨⟨k, b, ch⟩, -, rfl⟩ := List.mem_map.mp hx
      cases b with
      | false => cases hp
      | true =>
        cases hp
        have : ∃ z, y = .fin z := by
          rw [List.getElem?_map, List.getElem?_map] at hl
          rcases hl with hl | hl
          all_goals
            obtain ⟨z, -, rfl⟩ := Option.map_eq_some_iff.mp hl
            obtain ⟨w, -, rfl⟩ := List.mem_map.mp hy
            exact ⟨w, rfl⟩
        obtain ⟨z, rfl⟩ := this
        rfl) (I := LibraryBatch m ns nq (if query.isNone then none else some nq)) (by rw [hg]; exact library_sizedBatch memE hmemE memZ hmemZ m ns nq _ hns hnq) (by
      rw [hqd]
      rintro x hx s' q' g h1' h2' e
      obtain ⟨⟨k, b, ch⟩, -, rfl⟩ := List.mem_map.mp hx
      rw [List.getElem?_map] at h1' h2'
      obtain ⟨s, h1, rfl⟩ := Option.map_eq_some_iff.mp h1'
      obtain ⟨q, h2, rfl⟩ := Option.map_eq_some_iff.mp h2'
      have hls := hs s (List.mem_of_getElem? h1)
      have hlq := hq q (List.mem_of_getElem? h2)
      cases query with
      | none =>
        have : some s = some q := h1.symm.trans h2
        cases this
        obtain ⟨x, hx1, hx2⟩ := GenKind.near_prepare memE hmemE memZ hmemZ m hm s none (by omega) (by simp) k
        have e : k.prepare memE memZ m (s.map .fin) none = .ok g := e
        have hx1 : k.prepare memE memZ m (s.map .fin) none = .ok x := hx1
        rw [hx1] at e
        cases e
        exact ⟨k, ⟨s, s, none⟩, hls, hlq, by simp, by rw [← hls]; exact hx2⟩
      | some qs =>
        obtain ⟨x, hx1, hx2⟩ := GenKind.near_prepare memE hmemE memZ hmemZ m hm s (some q) (by omega) (fun q' h => by cases h; omega) k
        have e : k.prepare memE memZ m (s.map .fin) (some (q.map .fin)) = .ok g := e
        have hx1 : k.prepare memE memZ m (s.map .fin) (some (q.map .fin)) = .ok x := hx1
        rw [hx1] at e
        cases e
        exact ⟨k, ⟨s, q, none⟩, hls, hlq, by simp, by rw [← hls, ← hlq]; exact hx2⟩)
  simpa [List.map_map, Function.comp_def] using this

/-- A self-join on two channels: a filtered z-normalised and a plain Euclidean generator on channel 0, a filtered Euclidean one on channel 1. -/
example (memZ : ZN.Mem) (hmemZ : memZ.Ok) (calls : List Anytime.Op) :=
  C106_calculator_repository (ops := MP.ops (GenKind.ops (fun n => List.replicate n .nan) memZ)) (ops' := MP.ops ((GenKind.ops _ memZ).sum (Filter.Batch.ops _)))
    (fun n => List.replicate n .nan) (by simp) memZ hmemZ rfl rfl ⟨rfl, rfl, rfl, rfl, rfl⟩ List.reverse (fun _ _ h => List.mem_reverse.mp h)
    [(.znorm 0 2, true, 0), (.euclidean 2, false, 0), (.euclidean 1, true, 1)] [(MP.new, [0]), (MP.new, [1, 2])] [0, 1, 2] 2 (by norm_num) [[1, 3, 2, 5], [0, 0, 1, 7]] none none calls
    (ns := 4) (nq := 4) (by norm_num) (by norm_num) (by simp) (by simp) (by simp) (by simp)

/-! ### Streaming -/

/-- `prepare_streaming` of a generator, wrapped in a `FilterGenerator` (with its filter and its `rb_scale_factor`) or not. -/
def wrapStream (mem : Nat → List Bool) (prepS : Int → Int → Option Int → Except PyErr G) :
    Option ((Fl K → Bool) × ℚ) → Int → Int → Option Int → Except PyErr (G ⊕ ((Fl K → Bool) × Filter.Streaming G))
  | none, m, w, q => (prepS m w q).map .inl
  | some (p, scale), m, w, q => (Filter.prepareStreaming (fun m n q => prepS m n (q.map fun q : Nat => (q : Int))) mem scale m.toNat w.toNat (q.map Int.toNat)).map fun b => .inr (p, b)

/-- Columns have as many entries as in the distance matrix of the windows. -/
structure SizedStream (ops : GenOps G K) (m N : Nat) (M : Option Nat) (Ready : Int → Int → Prop) (D : Nat → Fl K → Prop) (I : Int → Int → Nat → G → Prop) : Prop where
  column : ∀ ns nq ch g, Ready ns nq → I ns nq ch g → ∀ (c : Int) g' vs, 0 ≤ c → c + m ≤ N → c + m ≤ ns → ops.calcColumn g c = .ok (g', vs) →
    I ns nq ch g' ∧ vs.length = queryPoints N M ns nq + 1 - m
  series : ∀ ns nq ch g, I ns nq ch g → ∀ v g', v ≠ [] → (∀ x ∈ v, D ch x) → ops.appendSeries g v = .ok g' → I (ns + v.length) nq ch g'
  query : ∀ ns nq ch g, 0 ≤ nq → I ns nq ch g → ∀ v g', v ≠ [] → (∀ x ∈ v, D ch x) → ops.appendQuery g v = .ok g' → I ns (nq + v.length) ch g'

/-- A filter that marked nothing so far. -/
structure ClearStream (m N : Nat) (M : Option Nat) (ns nq : Int) (p : Fl K → Bool) (b : Filter.Streaming G) (st : GSt (Fl K)) : Prop where
  masks : Filter.SMasks m N M p b st
  series : ∀ x ∈ st.s, p x = false
  query : ∀ x ∈ st.q, p x = false
  seriesLen : st.s.length = min ns.toNat N
  queryLen : st.q.length = queryPoints N M ns nq
  pos : 0 ≤ ns

/-- A generator and the same one, wrapped or not. -/
def WrappedStream (m N : Nat) (M : Option Nat) (D : Nat → Fl K → Prop) (I : Int → Int → Nat → G → Prop) (ns nq : Int) (ch : Nat) (g : G)
    (g' : G ⊕ ((Fl K → Bool) × Filter.Streaming G)) : Prop :=
  I ns nq ch g ∧ (M = none → nq = -1) ∧ (g' = .inl g ∨ ∃ p b, g' = .inr (p, b) ∧ b.gen = g ∧ (∀ x, D ch x → p x = false) ∧ ∃ st, ClearStream m N M ns nq p b st)

theorem wrapped_mimics {ops : GenOps G K} {m N : Nat} {M : Option Nat} {Ready : Int → Int → Prop} {D : Nat → Fl K → Prop} {I : Int → Int → Nat → G → Prop}
    (hI : SizedStream ops m N M Ready D I) :
    Mimics (m : Int) ((N : Int) - m + 1) Ready (fun ch v v' => v' = v ∧ v ≠ [] ∧ ∀ x ∈ v, D ch x) (WrappedStream m N M D I) ops (ops.sum (Filter.streamingOps ops)) where
  column := by
    rintro ns nq ch g g' hr ⟨hi, hM, hg⟩ c hc0 hc1 hc2
    rcases hg with rfl | ⟨p, b, rfl, rfl, hD, st, hst⟩
    · show Alike _ _ ((ops.calcColumn g c).map fun x => (Sum.inl x.1, x.2))
      cases e : ops.calcColumn g c with
      | error x => exact .err x
      | ok r => exact .ok ⟨⟨(hI.column _ _ ch g hr hi c r.1 r.2 hc0 (by omega) hc2 e).1, hM, .inl rfl⟩, rfl⟩
    · show Alike _ _ (((b.calcColumn ops c).map fun x => ((p, x.1), x.2)).map fun x => (Sum.inr x.1, x.2))
      obtain ⟨c, rfl⟩ := Int.eq_ofNat_of_zero_le hc0
      have hm := hst.masks.m_pos
      have hls := hst.seriesLen
      have hget : pyGet b.sSub.items (c : Int) = .ok false := by
        have hi : hasInvalid p m st.s c = false := Filter.maskOf_clear (m := m) st.s hst.series _ (List.mem_of_getElem? (i := c) (by rw [Filter.maskOf_getElem?, if_pos (by omega)]))
        rw [pyGet_nat_ok, hst.masks.sMasks.sub_eq, Filter.maskOf_getElem?, if_pos (by omega), hi]
      unfold Filter.Streaming.calcColumn
      simp only [hget, bind, Except.bind, Bool.false_eq_true, if_false, Filter.qMask_eq hst.masks.sMasks hst.masks.qMasks]
      cases e : ops.calcColumn b.gen c with
      | error x => exact .err x
      | ok r =>
        obtain ⟨hi', hl⟩ := hI.column _ _ ch _ hr hi c r.1 r.2 hc0 (by omega) hc2 e
        dsimp only
        rw [Filter.npMaskFill_clear r.2 (Filter.maskOf p m st.q) .pinf (by rw [hl, Filter.maskOf_length, hst.queryLen]) (Filter.maskOf_clear st.q hst.query)]
        exact .ok ⟨⟨hi', hM, .inr ⟨p, _, rfl, rfl, hD, st, ⟨⟨hst.masks.m_eq, hst.masks.m_pos, hst.masks.m_le, hst.masks.sMasks, hst.masks.qMasks⟩, hst.series, hst.query, hst.seriesLen,
          hst.queryLen, hst.pos⟩⟩⟩, rfl⟩
  series := by
    rintro ns nq ch g g' ⟨hi, hM, hg⟩ v v' ⟨rfl, hne, hv⟩
    rcases hg with rfl | ⟨p, b, rfl, rfl, hD, st, hst⟩
    · show Alike _ _ ((ops.appendSeries g v').map Sum.inl)
      cases e : ops.appendSeries g v' with
      | error x => exact .err x
      | ok r => exact .ok ⟨hI.series _ _ ch g hi v' r hne hv e, hM, .inl rfl⟩
    · show Alike _ _ (((b.appendSeries ops (fun l _ => l.map p) v').map fun x => (p, x)).map Sum.inr)
      have hcl : ∀ x ∈ v', p x = false := fun x hx => hD x (hv x hx)
      obtain ⟨r, h1, h2⟩ := Filter.pushMasks_ok p _ N m st.s v' hst.masks.m_pos hst.masks.m_le (List.length_pos_iff.mpr hne) hst.masks.sMasks
      unfold Filter.Streaming.appendSeries
      simp only [Filter.applyValidation_ok (f := fun l _ => l.map p) (p := p) (fun _ _ => rfl), bind, Except.bind, hst.masks.m_eq, h1, Filter.zeroed_clear v' hcl]
      cases e : ops.appendSeries b.gen v' with
      | error x => exact .err x
      | ok g =>
        have hm := Filter.Streaming.exec_masks (ops := ops) (f := fun l _ => l.map p) (fun _ _ => rfl) b { b with gen := g, invSeries := r.1, sSub := r.2 } st hst.masks (.series v') hne (by
          show b.appendSeries ops (fun l _ => l.map p) v' = _
          unfold Filter.Streaming.appendSeries
          simp only [Filter.applyValidation_ok (f := fun l _ => l.map p) (p := p) (fun _ _ => rfl), bind, Except.bind, hst.masks.m_eq, h1, Filter.zeroed_clear v' hcl, e]
          rfl)
        rw [hst.masks.m_eq] at hm
        have h0 : v'.length ≠ 0 := fun h => hne (List.length_eq_zero_iff.mp h)
        have hp := hst.pos
        have hl := hst.seriesLen
        have hlq := hst.queryLen
        have hs' : ∀ x ∈ lastN N (st.s ++ v'), p x = false := fun x hx => by
          have : x ∈ st.s ++ v' := List.mem_of_mem_drop (by simpa [lastN] using hx)
          exact (List.mem_append.mp this).elim (hst.series x) (hcl x)
        have hll : (lastN N (st.s ++ v')).length = min (ns + v'.length).toNat N := by
          simp only [lastN, List.length_drop, List.length_append, hl]; omega
        refine .ok ⟨hI.series _ _ ch _ hi v' g hne hv e, hM, .inr ⟨p, _, rfl, rfl, hD, _, ⟨hm, ?_, ?_, ?_, ?_, by omega⟩⟩⟩
        · simp only [GSt.step, h0, if_false]; cases M <;> exact hs'
        · simp only [GSt.step, h0, if_false]
          cases M with
          | none => exact hs'
          | some M => exact hst.query
        · simp only [GSt.step, h0, if_false]; cases M <;> exact hll
        · simp only [GSt.step, h0, if_false]
          cases M with
          | none => exact hll
          | some M => exact hlq
  query := by
    rintro ns nq ch g g' h0q ⟨hi, hM, hg⟩ v v' ⟨rfl, hne, hv⟩
    cases M with
    | none => exact absurd (hM rfl) (by omega)
    | some M =>
    rcases hg with rfl | ⟨p, b, rfl, rfl, hD, st, hst⟩
    · show Alike _ _ ((ops.appendQuery g v').map Sum.inl)
      cases e : ops.appendQuery g v' with
      | error x => exact .err x
      | ok r => exact .ok ⟨hI.query _ _ ch g h0q hi v' r hne hv e, fun h => by (cases h), .inl rfl⟩
    · show Alike _ _ (((b.appendQuery ops (fun l _ => l.map p) v').map fun x => (p, x)).map Sum.inr)
      have hcl : ∀ x ∈ v', p x = false := fun x hx => hD x (hv x hx)
      obtain ⟨hMm, rq, hrq, hq⟩ := hst.masks.qMasks
      obtain ⟨r, h1, h2⟩ := Filter.pushMasks_ok p _ M m st.q v' hst.masks.m_pos hMm (List.length_pos_iff.mpr hne) hq
      unfold Filter.Streaming.appendQuery
      simp only [hrq, Filter.applyValidation_ok (f := fun l _ => l.map p) (p := p) (fun _ _ => rfl), bind, Except.bind, hst.masks.m_eq, h1, Filter.zeroed_clear v' hcl]
      cases e : ops.appendQuery b.gen v' with
      | error x => exact .err x
      | ok g =>
        have hm := Filter.Streaming.exec_masks (ops := ops) (f := fun l _ => l.map p) (fun _ _ => rfl) b { b with gen := g, query := some r } st hst.masks (.query v') hne (by
          show b.appendQuery ops (fun l _ => l.map p) v' = _
          unfold Filter.Streaming.appendQuery
          simp only [hrq, Filter.applyValidation_ok (f := fun l _ => l.map p) (p := p) (fun _ _ => rfl), bind, Except.bind, hst.masks.m_eq, h1, Filter.zeroed_clear v' hcl, e]
          rfl)
        rw [hst.masks.m_eq] at hm
        have h0 : v'.length ≠ 0 := fun h => hne (List.length_eq_zero_iff.mp h)
        have hlq : st.q.length = min nq.toNat M := hst.queryLen
        have hs' : ∀ x ∈ lastN M (st.q ++ v'), p x = false := fun x hx => by
          have : x ∈ st.q ++ v' := List.mem_of_mem_drop (by simpa [lastN] using hx)
          exact (List.mem_append.mp this).elim (hst.query x) (hcl x)
        have hll : (lastN M (st.q ++ v')).length = min (nq + v'.length).toNat M := by
          simp only [lastN, List.length_drop, List.length_append, hlq]; omega
        refine .ok ⟨hI.query _ _ ch _ h0q hi v' g hne hv e, fun h => by (cases h), .inr ⟨p, _, rfl, rfl, hD, _, ⟨hm, ?_, ?_, ?_, ?_, hst.pos⟩⟩⟩
        · simp only [GSt.step, h0, if_false]; exact hst.series
        · simp only [GSt.step, h0, if_false]; exact hs'
        · simp only [GSt.step, h0, if_false]; exact hst.seriesLen
        · simp only [GSt.step, h0, if_false]; exact hll

/-- The points of a block, by channel. -/
def rowsOf : NDArray K → List (List (Fl K))
  | .d1 v => v.map fun x => [x]
  | .d2 rows _ => rows
  | .higher => []

/-- Blocks of at least one point, with rows of equal length and points that satisfy `D`. -/
def BlockOk (D : Nat → Fl K → Prop) (v : NDArray K) : Prop :=
  0 < v.points ∧ (∀ row ∈ rowsOf v, row.length = v.points) ∧ ∀ (ch : Nat) (row : List (Fl K)), (rowsOf v)[ch]? = some row → ∀ x ∈ row, D ch x

/-- Calls with such blocks. -/
def CallOk (D : Nat → Fl K → Prop) : Streaming.Op K → Prop
  | .series v => BlockOk D v
  | .query v => BlockOk D v
  | .columns _ _ => True

omit [Zero K] in
theorem callsPair_self {D : Nat → Fl K → Prop} {calls : List (Streaming.Op K)} (h : ∀ o ∈ calls, CallOk D o ∨ (∃ v, o = .series v ∧ v = .higher) ∨ ∃ v, o = .query v ∧ v = .higher) :
    List.Forall₂ (CallsPair fun ch v v' => v' = v ∧ v ≠ [] ∧ ∀ x ∈ v, D ch x) calls calls := by
  have key : ∀ v : NDArray K, BlockOk D v → ArraysPair (fun ch v v' => v' = v ∧ v ≠ [] ∧ ∀ x ∈ v, D ch x) v v := by
    rintro v ⟨h0, h1, h2⟩
    have : RowsPair (fun ch v v' => v' = v ∧ v ≠ [] ∧ ∀ x ∈ v, D ch x) v.points (rowsOf v) (rowsOf v) := by
      refine ⟨rfl, h1, fun i x y hx hy => ?_⟩
      rw [hx] at hy
      cases hy
      refine ⟨rfl, fun e => ?_, h2 i x hx⟩
      have := h1 x (List.mem_of_getElem? hx)
      rw [e] at this
      exact absurd this.symm (by simpa using Nat.pos_iff_ne_zero.mp h0)
    cases v with
    | d1 v => exact this
    | d2 rows c => exact ⟨rfl, this⟩
    | higher => trivial
  rw [List.forall₂_same]
  intro o ho
  rcases h o ho with h | ⟨v, rfl, rfl⟩ | ⟨v, rfl, rfl⟩
  · cases o with
    | series v => exact key v h
    | query v => exact key v h
    | columns ints n => exact ⟨rfl, rfl⟩
  · trivial
  · trivial

/-- **C106, calculators, streaming.** The same for streaming calculators: points that the filters do not mark arrive in blocks of at least one point. `D ch` describes the
points of channel `ch`. -/
theorem C106_calculator_stream {ops : Ops G C K} {ops' : Ops (G ⊕ ((Fl K → Bool) × Filter.Streaming G)) C K} (hops : ops'.gen = ops.gen.sum (Filter.streamingOps ops.gen))
    (hc : SameConsumers ops ops') (mem : Nat → List Bool) (hmem : ∀ n, (mem n).length = n)
    (gens : List ((Int → Int → Option Int → Except PyErr G) × Option ((Fl K → Bool) × ℚ) × Nat)) (consumers : List (C × List Nat)) (needed : List Nat) (m N : Nat) (M : Option Nat)
    (hm : 0 < m) (hN : m ≤ N) (hM : ∀ M', M = some M' → m ≤ M') (nDim : Nat) (buffer : Option Int) (D : Nat → Fl K → Prop)
    (hfilter : ∀ x ∈ gens, ∀ p scale, x.2.1 = some (p, scale) → 1 ≤ scale ∧ scale ≤ 2 ∧ ∀ y, D x.2.2 y → p y = false) (calls : List (Streaming.Op K))
    (hcalls : ∀ o ∈ calls, CallOk D o ∨ (∃ v, o = .series v ∧ v = .higher) ∨ ∃ v, o = .query v ∧ v = .higher) (Ready : Int → Int → Prop)
    (hready : ReadyCalls Ready 0 (startQuery (M.map fun M : Nat => (M : Int))) calls) {I : Int → Int → Nat → G → Prop} (hI : SizedStream ops.gen m N M Ready D I)
    (hI0 : ∀ x ∈ gens, ∀ g, x.1 m N (M.map fun M : Nat => (M : Int)) = .ok g → I 0 (startQuery (M.map fun M : Nat => (M : Int))) x.2.2 g) :
    streamAll ops' (gens.map fun x => (wrapStream mem x.1 x.2.1, x.2.2)) consumers needed m N (M.map fun M : Nat => (M : Int)) nDim buffer calls =
      streamAll ops (gens.map fun x => (x.1, x.2.2)) consumers needed m N (M.map fun M : Nat => (M : Int)) nDim buffer calls := by
  refine C109_stream (Ready := Ready) (R := WrappedStream m N M D I) hc consumers needed m N _ nDim buffer (by rw [hops]; exact wrapped_mimics hI) ?_ (callsPair_self hcalls) hready
  rw [List.forall₂_map_left_iff, List.forall₂_map_right_iff, List.forall₂_same]
  rintro ⟨prep, o, ch⟩ hx
  refine ⟨rfl, ?_⟩
  dsimp only
  have hi := fun g => hI0 _ hx g
  dsimp only at hi
  have hnone : M = none → startQuery (M.map fun M : Nat => (M : Int)) = -1 := by rintro rfl; rfl
  cases o with
  | none =>
    show Alike _ _ ((prep m N _).map Sum.inl)
    cases e : prep m N (M.map fun M : Nat => (M : Int)) with
    | error x => exact .err x
    | ok g => exact .ok ⟨hi g e, hnone, .inl rfl⟩
  | some f =>
    obtain ⟨p, scale⟩ := f
    obtain ⟨hs1, hs2, hD⟩ := hfilter _ hx p scale rfl
    show Alike _ _ ((Filter.prepareStreaming (fun m n q => prep m n (q.map fun q : Nat => (q : Int))) mem scale (m : Int).toNat (N : Int).toNat
      ((M.map fun M : Nat => (M : Int)).map Int.toNat)).map fun b => Sum.inr (p, b))
    obtain ⟨a, ha1, ha2⟩ := Filter.emptyMasks_ok p mem hmem scale hs1 hs2 m N hm hN
    have hq : ∃ r, Filter.emptyQueryMasks mem scale m M = .ok r ∧ Filter.QMasks r m M p ([] : List (Fl K)) [] := by
      cases M with
      | none => exact ⟨none, rfl, rfl, rfl⟩
      | some M =>
        obtain ⟨r, hr1, hr2⟩ := Filter.emptyMasks_ok p mem hmem scale hs1 hs2 m M hm (hM M rfl)
        exact ⟨some r, by rw [Filter.emptyQueryMasks, hr1]; rfl, hM M rfl, r, rfl, hr2⟩
    obtain ⟨r, hr1, hr2⟩ := hq
    have eM : (M.map fun M : Nat => (M : Int)).map Int.toNat = M := by cases M <;> simp
    rw [eM, Int.toNat_natCast, Int.toNat_natCast]
    unfold Filter.prepareStreaming
    rw [if_neg (by exact not_lt.mpr hs1)]
    cases e : prep m N (M.map fun M : Nat => (M : Int)) with
    | error x =>
      simp only [bind, Except.bind, e]
      exact .err x
    | ok g =>
      simp only [bind, Except.bind, e, ha1, hr1, pure, Except.pure]
      refine .ok ⟨hi g e, hnone, .inr ⟨p, _, rfl, rfl, hD, ⟨[], [], none⟩, ⟨⟨rfl, hm, hN, ha2, hr2⟩, by simp, by simp, by simp, ?_, le_rfl⟩⟩⟩
      cases M <;> simp [queryPoints, startQuery]

theorem library_sizedStream (memE : Nat → List (Fl ℝ)) (memZ : ZN.Mem) (m N : Nat) (hm : 0 < m) (M : Option Nat) (D : Nat → Fl ℝ → Prop) :
    SizedStream (GenKind.ops memE memZ) m N M (fun _ _ => True) D (LibrarySize m N M) where
  column := by
    rintro ns nq ch (g | z) - hi c g' vs h0 h1 h2 e
    · obtain ⟨r, e1, e2⟩ := map_ok_iff.mp e
      cases e2
      exact Eucl.size_column memE Real.sqrt hm hi h0 h1 h2 e1
    · obtain ⟨r, e1, e2⟩ := map_ok_iff.mp e
      cases e2
      exact ZN.size_column memZ.fl hi e1
  series := by
    rintro ns nq ch (g | z) hi v g' - - e
    · obtain ⟨r, e1, e2⟩ := map_ok_iff.mp e
      cases e2
      exact Eucl.size_series hi e1
    · obtain ⟨r, e1, e2⟩ := map_ok_iff.mp e
      cases e2
      exact ZN.size_series hi e1
  query := by
    rintro ns nq ch (g | z) h0 hi v g' - - e
    · obtain ⟨r, e1, e2⟩ := map_ok_iff.mp e
      cases e2
      exact Eucl.size_query hi h0 e1
    · obtain ⟨r, e1, e2⟩ := map_ok_iff.mp e
      cases e2
      exact ZN.size_query hi h0 e1

theorem library_start (memE : Nat → List (Fl ℝ)) (hmemE : ∀ n, (memE n).length = n) (memZ : ZN.Mem) (hmemZ : memZ.Ok) (m N : Nat) (hm : 0 < m) (hN : m ≤ N) (M : Option Nat)
    (hM : ∀ M', M = some M' → m ≤ M') (k : GenKind) (hk : k.ScaleOk) (ch : Nat) {nq : Int} (hq : nq ≤ 0) {g : ColCache ℝ ⊕ ZN}
    (e : k.streaming memE memZ m N (M.map fun M : Nat => (M : Int)) = .ok g) : LibrarySize m N M 0 nq ch g := by
  have eM : (M.map fun M : Nat => (M : Int)).map Int.toNat = M := by cases M <;> simp
  cases k with
  | euclidean scale =>
    simp only [GenKind.streaming, Eucl.streaming, eM, Int.toNat_natCast, Except.map] at e
    cases e
    exact ⟨Eucl.filled_start memE hmemE scale hk.1 hk.2 hm hN hM hq, fun h => absurd rfl h⟩
  | znorm noise scale =>
    simp only [GenKind.streaming, ZN.streaming, eM, Int.toNat_natCast] at e
    obtain ⟨z, e1, e2⟩ := map_ok_iff.mp e
    cases e2
    unfold ZN.prepareStreaming at e1
    obtain ⟨ss, -, e1⟩ := bind_ok_iff.mp e1
    obtain ⟨qs, -, e1⟩ := bind_ok_iff.mp e1
    cases e1
    exact Eucl.filled_start memZ.fl hmemZ.1 scale hk.1 hk.2 hm hN hM hq

/-- **C106, calculators, streaming, generators of the repository.** Filters around any of the generators of a streaming calculator, which do not mark the data, any consumers
and calls. -/
theorem C106_calculator_repository_stream {ops : Ops (ColCache ℝ ⊕ ZN) C ℝ} {ops' : Ops ((ColCache ℝ ⊕ ZN) ⊕ ((Fl ℝ → Bool) × Filter.Streaming (ColCache ℝ ⊕ ZN))) C ℝ}
    (memE : Nat → List (Fl ℝ)) (hmemE : ∀ n, (memE n).length = n) (memZ : ZN.Mem) (hmemZ : memZ.Ok) (hg : ops.gen = GenKind.ops memE memZ)
    (hops : ops'.gen = ops.gen.sum (Filter.streamingOps ops.gen)) (hc : SameConsumers ops ops') (mem : Nat → List Bool) (hmem : ∀ n, (mem n).length = n)
    (kinds : List (GenKind × Option ((Fl ℝ → Bool) × ℚ) × Nat)) (hk : ∀ x ∈ kinds, x.1.ScaleOk) (consumers : List (C × List Nat)) (needed : List Nat) (m N : Nat) (M : Option Nat)
    (hm : 0 < m) (hN : m ≤ N) (hM : ∀ M', M = some M' → m ≤ M') (nDim : Nat) (buffer : Option Int) (D : Nat → Fl ℝ → Prop)
    (hfilter : ∀ x ∈ kinds, ∀ p scale, x.2.1 = some (p, scale) → 1 ≤ scale ∧ scale ≤ 2 ∧ ∀ y, D x.2.2 y → p y = false) (calls : List (Streaming.Op ℝ))
    (hcalls : ∀ o ∈ calls, CallOk D o ∨ (∃ v, o = .series v ∧ v = .higher) ∨ ∃ v, o = .query v ∧ v = .higher) :
    streamAll ops' (kinds.map fun x => (wrapStream mem (x.1.streaming memE memZ) x.2.1, x.2.2)) consumers needed m N (M.map fun M : Nat => (M : Int)) nDim buffer calls =
      streamAll ops (kinds.map fun x => (x.1.streaming memE memZ, x.2.2)) consumers needed m N (M.map fun M : Nat => (M : Int)) nDim buffer calls := by
  have := C106_calculator_stream hops hc mem hmem (kinds.map fun x => (x.1.streaming memE memZ, x.2.1, x.2.2)) consumers needed m N M hm hN hM nDim buffer D (by
      rintro x hx p scale hp
      obtain ⟨k, hk', rfl⟩ := List.mem_map.mp hx
      exact hfilter k hk' p scale hp) calls hcalls (fun _ _ => True) (readyCalls_true _ _ _) (I := LibrarySize m N M) (by rw [hg]; exact library_sizedStream memE memZ m N hm M D) (by
      rintro x hx g e
      obtain ⟨k, hk', rfl⟩ := List.mem_map.mp hx
      exact library_start memE hmemE memZ hmemZ m N hm hN M hM k.1 (hk k hk') _ (by cases M <;> simp [startQuery]) e)
  simpa [List.map_map, Function.comp_def] using this

/-- Two channels, a window of 4 points for the series and of 3 for the query: the z-normalised generator of channel 0 is behind the default filter, the Euclidean one of
channel 1 behind a filter that marks only `-∞`. Channel 0 holds finite numbers, channel 1 also `∞` and `nan`. -/
example (memZ : ZN.Mem) (hmemZ : memZ.Ok) :=
  C106_calculator_repository_stream (ops := MP.ops (GenKind.ops (fun n => List.replicate n .nan) memZ)) (ops' := MP.ops ((GenKind.ops _ memZ).sum (Filter.streamingOps _)))
    (fun n => List.replicate n .nan) (by simp) memZ hmemZ rfl rfl ⟨rfl, rfl, rfl, rfl, rfl⟩ (fun n => List.replicate n true) (by simp)
    [(.znorm 0 2, some (fun y => !y.isFinite, 2), 0), (.euclidean 2, none, 0), (.euclidean 1, some (fun y => decide (y = .ninf), 3/2), 1)] (by
      norm_num [GenKind.ScaleOk]) [(MP.new, [0]), (MP.new, [1, 2])] [0, 1, 2] 2 4 (some 3) (by norm_num) (by norm_num) (by simp) 2 none
    (fun ch y => (ch = 0 → ∃ x, y = .fin x) ∧ y ≠ .ninf) (by
      simp only [List.mem_cons, List.not_mem_nil, or_false]
      rintro x (rfl | rfl | rfl) p scale hp
      · cases hp
        refine ⟨by norm_num, le_rfl, fun y h => ?_⟩
        obtain ⟨z, rfl⟩ := h.1 rfl
        rfl
      · cases hp
      · cases hp
        exact ⟨by norm_num, by norm_num, fun y h => by simpa using h.2⟩)
    [.series (.d2 [[.fin 1, .fin (-3), .fin 2], [.fin 0, .pinf, .fin 7]] 3), .query (.d2 [[.fin 4, .fin 4], [.nan, .fin 1]] 2), .columns (fun _ => false) (.int 2), .series (.d2 [[.fin 5, .fin 6], [.fin 0, .fin 2]] 2),
      .columns (fun c => c = 3) (.float (.fin (3/4)))] (by
      simp only [List.mem_cons, List.not_mem_nil, or_false]
      rintro o (rfl | rfl | rfl | rfl | rfl)
      · refine .inl ⟨by simp [NDArray.points], by simp [rowsOf, NDArray.points], ?_⟩
        rintro (_ | _ | ch) row h x hx <;> simp [rowsOf] at h <;> subst h <;> simp at hx <;> rcases hx with rfl | rfl | rfl <;> simp
      · refine .inl ⟨by simp [NDArray.points], by simp [rowsOf, NDArray.points], ?_⟩
        rintro (_ | _ | ch) row h x hx <;> simp [rowsOf] at h <;> subst h <;> simp at hx <;> rcases hx with rfl | rfl <;> simp
      · exact .inl trivial
      · refine .inl ⟨by simp [NDArray.points], by simp [rowsOf, NDArray.points], ?_⟩
        rintro (_ | _ | ch) row h x hx <;> simp [rowsOf] at h <;> subst h <;> simp at hx <;> rcases hx with rfl | rfl <;> simp
      · exact .inl trivial)

end Verif
