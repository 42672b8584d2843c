import Verif.Lemmas.ColumnCache
import Verif.Props.NearFeed
import Verif.Model.Assembly

/-!
Columns of the generators of the repository have the right number of entries, whatever the data.
-/

namespace Verif
open Spec

/-- The number of points in the window of the query (of the series in a self-join). -/
def queryPoints (N : Nat) (M : Option Nat) (ns nq : Int) : Nat :=
  match M with
  | none => min ns.toNat N
  | some M => min nq.toNat M

namespace ColCache
variable {K : Type}

/-- Windows of `N` and `M` points after `ns` and `nq` points. -/
structure Filled (m N : Nat) (M : Option Nat) (ns nq : Int) (g : ColCache K) : Prop where
  m_eq : g.m = m
  series : g.series.Good N
  seriesLen : g.series.items.length = min ns.toNat N
  pos : 0 ≤ ns
  query : match M with
    | none => g.query = none
    | some M => ∃ r, g.query = some r ∧ r.Good M ∧ r.items.length = min nq.toNat M

variable {m N : Nat} {M : Option Nat} {ns nq : Int} {g g' : ColCache K}

theorem Filled.q_length (h : g.Filled m N M ns nq) : g.q.length = queryPoints N M ns nq := by
  unfold ColCache.q queryPoints
  have hq := h.query
  cases M with
  | none => rw [show g.query = none from hq]; exact h.seriesLen
  | some M =>
    obtain ⟨r, h1, -, h2⟩ := hq
    rw [h1]
    exact h2

theorem Filled.frame (h : g.Filled m N M ns nq) (h1 : g'.series = g.series) (h2 : g'.query = g.query) (h3 : g'.m = g.m) : g'.Filled m N M ns nq := by
  refine ⟨by rw [h3]; exact h.m_eq, by rw [h1]; exact h.series, by rw [h1]; exact h.seriesLen, h.pos, ?_⟩
  rw [h2]
  exact h.query

theorem q_frame (h1 : g'.series = g.series) (h2 : g'.query = g.query) : g'.q = g.q := by
  unfold ColCache.q
  rw [h1, h2]

theorem Filled.pushSeries (h : g.Filled m N M ns nq) (v : List (Fl K)) {d : Nat} {n : Int} (e : g.pushSeries v = .ok (g', d, n)) :
    g'.Filled m N M (ns + v.length) nq ∧ g'.query = g.query ∧ g'.prev = g.prev ∧ g'.prevIdx = g.prevIdx := by
  unfold ColCache.pushSeries at e
  obtain ⟨rb, h1, h2, h3, -⟩ := h.series.push v
  rw [h1] at e
  cases e
  have hp := h.pos
  refine ⟨⟨h.m_eq, h2, ?_, by omega, h.query⟩, rfl, rfl, rfl⟩
  rw [h3]
  simp only [lastN, List.length_drop, List.length_append, h.seriesLen]
  omega

theorem Filled.pushQuery {M : Nat} (h : g.Filled m N (some M) ns nq) (h0 : 0 ≤ nq) {r : RB (Fl K)} (hr : g.query = some r) (v : List (Fl K)) (e : g.pushQuery r v = .ok g') :
    g'.Filled m N (some M) ns (nq + v.length) ∧ g'.prevIdx = none := by
  obtain ⟨r', h1, h2, h3⟩ := h.query
  rw [hr] at h1
  cases h1
  unfold ColCache.pushQuery at e
  obtain ⟨rb, h4, h5, h6, -⟩ := h2.push v
  rw [h4] at e
  cases e
  refine ⟨⟨h.m_eq, h.series, h.seriesLen, h.pos, rb, rfl, h5, ?_⟩, rfl⟩
  rw [h6]
  simp only [lastN, List.length_drop, List.length_append, h3]
  omega

theorem finishSeries_sizes (g : ColCache K) (d : Nat) (n : Int) : (g.finishSeries d n).series = g.series ∧ (g.finishSeries d n).query = g.query ∧ (g.finishSeries d n).m = g.m ∧
    (g.finishSeries d n).prev = g.prev ∧ ((g.finishSeries d n).prevIdx ≠ none → g.prevIdx ≠ none ∧ g.query ≠ none) := by
  unfold ColCache.finishSeries
  dsimp only
  split
  · exact ⟨rfl, rfl, rfl, rfl, fun h => absurd rfl h⟩
  · rename_i r hr
    refine ⟨rfl, rfl, rfl, rfl, fun h => ⟨?_, by rw [hr]; simp⟩⟩
    intro e
    dsimp only at h
    rw [e] at h
    split at h <;> exact h rfl

variable [Field K] [LinearOrder K] {mem : Nat → List (Fl K)} {full : List (Fl K) → List (Fl K) → Except PyErr (List (Fl K))} {term : Fl K → Fl K → Fl K}

omit [LinearOrder K] in
theorem refreshFirstRow_prev {r : ColCache K × RB (Fl K)} (h : g.refreshFirstRow mem full = .ok r) : r.1.prev = g.prev := by
  unfold ColCache.refreshFirstRow at h
  split at h
  · obtain ⟨_, -, h⟩ := bind_ok_iff.mp h
    obtain ⟨_, -, h⟩ := bind_ok_iff.mp h
    cases h; rfl
  · split at h
    · obtain ⟨_, -, h⟩ := bind_ok_iff.mp h
      obtain ⟨_, -, h⟩ := bind_ok_iff.mp h
      cases h; rfl
    · cases h; rfl

omit [LinearOrder K] in
/-- A column is calculated anew or has the length of the previous one. -/
theorem column_length {c : Int} {vs : List (Fl K)} (h : g.column mem full term c = .ok (g', vs)) :
    (g'.prev = vs ∧ g'.prevIdx ≠ none) ∧ (full g.q (pySlice g.s c (c + g.m)) = .ok vs ∨ g.prevIdx ≠ none ∧ vs.length = g.prev.length) := by
  unfold ColCache.column at h
  split at h
  · obtain ⟨v, h1, h2⟩ := bind_ok_iff.mp h
    cases h2
    exact ⟨⟨rfl, by simp⟩, .inl h1⟩
  · rename_i hp
    obtain ⟨r, h1, h⟩ := bind_ok_iff.mp h
    have hr := refreshFirstRow_prev h1
    obtain ⟨x, -, h⟩ := bind_ok_iff.mp h
    obtain ⟨y, -, h⟩ := bind_ok_iff.mp h
    obtain ⟨a, -, h⟩ := bind_ok_iff.mp h
    obtain ⟨b, -, h⟩ := bind_ok_iff.mp h
    obtain ⟨v, h2, h⟩ := bind_ok_iff.mp h
    obtain ⟨w, -, h⟩ := bind_ok_iff.mp h
    obtain ⟨v', h3, h⟩ := bind_ok_iff.mp h
    cases h
    refine ⟨⟨rfl, by simp⟩, .inr ⟨fun e => hp (.inl (by rw [e]; simp)), ?_⟩⟩
    rw [pySet_length _ _ _ _ h3, assignSlice_length _ _ _ _ _ (pyIdx_le _ _) le_rfl h2, hr]

end ColCache

/-! ### Euclidean generators -/

section
variable {K : Type} [Field K] [LinearOrder K] {m N : Nat} {M : Option Nat} {ns nq : Int}

/-- The state of a Euclidean generator, as far as lengths go. -/
structure Eucl.SizeInv (m N : Nat) (M : Option Nat) (ns nq : Int) (g : ColCache K) : Prop where
  filled : g.Filled m N M ns nq
  prev : g.prevIdx ≠ none → g.prev.length = g.q.length + 1 - m

theorem Eucl.size_column (mem : Nat → List (Fl K)) (sq : K → K) (hm : 0 < m) {g g' : ColCache K} (h : Eucl.SizeInv m N M ns nq g) {c : Int} {vs : List (Fl K)} (h0 : 0 ≤ c)
    (h1 : c + m ≤ N) (h2 : c + m ≤ ns) (e : Eucl.calcColumn mem sq g c = .ok (g', vs)) : Eucl.SizeInv m N M ns nq g' ∧ vs.length = queryPoints N M ns nq + 1 - m := by
  unfold Eucl.calcColumn at e
  obtain ⟨r, e1, e2⟩ := bind_ok_iff.mp e
  cases e2
  obtain ⟨g', v⟩ := r
  obtain ⟨f1, f2, f3⟩ := ColCache.column_frame _ _ _ _ e1
  obtain ⟨⟨p1, p2⟩, hv⟩ := ColCache.column_length e1
  have hl : v.length = g.q.length + 1 - m := by
    rcases hv with hv | ⟨hp, hv⟩
    · unfold Eucl.sqDist at hv
      have hs : (pySlice g.s c (c + g.m)).length = m := by
        obtain ⟨c, rfl⟩ := Int.eq_ofNat_of_zero_le h0
        have := h.filled.seriesLen
        rw [h.filled.m_eq, pySlice_window, List.length_take, List.length_drop]
        unfold ColCache.s
        omega
      rw [hs] at hv
      obtain ⟨w, w1, w2⟩ := bind_ok_iff.mp hv
      cases w2
      unfold slidingWindows at w1
      rw [if_neg (by omega)] at w1
      split at w1
      · cases w1
      · cases w1
        simp only [List.length_map, List.length_range]
        omega
    · rw [hv, h.prev hp]
  refine ⟨⟨h.filled.frame f1 f2 f3, fun _ => ?_⟩, by rw [List.length_map, hl, h.filled.q_length]⟩
  dsimp only at p1 ⊢
  rw [p1, hl, ColCache.q_frame f1 f2]

theorem Eucl.size_series {g g' : ColCache K} (h : Eucl.SizeInv m N M ns nq g) {v : List (Fl K)} (e : Eucl.appendSeries g v = .ok g') :
    Eucl.SizeInv m N M (ns + v.length) nq g' := by
  unfold Eucl.appendSeries at e
  split at e
  · rename_i h0
    cases e
    rw [h0]
    simpa using h
  · obtain ⟨r, e1, e2⟩ := bind_ok_iff.mp e
    cases e2
    obtain ⟨g1, d, n⟩ := r
    obtain ⟨hf, hq, hp, hi⟩ := h.filled.pushSeries v e1
    obtain ⟨f1, f2, f3, f4, f5⟩ := ColCache.finishSeries_sizes g1 d n
    refine ⟨hf.frame f1 f2 f3, fun hx => ?_⟩
    dsimp only at hx ⊢
    obtain ⟨hx1, hx2⟩ := f5 hx
    rw [f4, hp, h.prev (by rw [← hi]; exact hx1)]
    congr 2
    have : g.query ≠ none := by rw [← hq]; exact hx2
    unfold ColCache.q
    rw [f2, hq]
    cases e : g.query with
    | none => exact absurd e this
    | some r => rfl

theorem Eucl.size_query {g g' : ColCache K} (h : Eucl.SizeInv m N M ns nq g) (h0 : 0 ≤ nq) {v : List (Fl K)} (e : Eucl.appendQuery g v = .ok g') :
    Eucl.SizeInv m N M ns (nq + v.length) g' := by
  unfold Eucl.appendQuery at e
  cases M with
  | none =>
    have : g.query = none := h.filled.query
    rw [this] at e
    cases e
  | some M =>
    obtain ⟨r, h1, -, -⟩ := h.filled.query
    rw [h1] at e
    dsimp only at e
    split at e
    · rename_i h0
      cases e
      rw [h0]
      simpa using h
    · obtain ⟨hf, hp⟩ := h.filled.pushQuery h0 h1 v e
      exact ⟨hf, fun hx => absurd hp hx⟩

omit [LinearOrder K] in
theorem Eucl.filled_start (mem : Nat → List (Fl K)) (hmem : ∀ n, (mem n).length = n) (scale : ℚ) (hs1 : 1 ≤ scale) (hs2 : scale ≤ 2) (hm : 0 < m) (hN : m ≤ N)
    (hM : ∀ M', M = some M' → m ≤ M') (hq : nq ≤ 0) : ColCache.Filled m N M 0 nq (Eucl.prepareStreaming mem scale m N M) := by
  refine ⟨rfl, RB.mkEmpty_good_scale scale hs1 hs2 _ _ _ (by omega) (hmem _), by rw [Eucl.prepareStreaming, RB.mkEmpty_items]; simp, le_rfl, ?_⟩
  cases M with
  | none => rfl
  | some M =>
    have := hM M rfl
    exact ⟨_, rfl, RB.mkEmpty_good_scale scale hs1 hs2 _ _ _ (by omega) (hmem _), by rw [RB.mkEmpty_items]; simp; omega⟩
end

/-! ### z-normalised generators -/

section
variable {m N : Nat} {M : Option Nat} {ns nq : Int}

theorem zipEntries_length {β : Type} {f : Fl ℝ → ℝ → ℝ → Bool → β} {dot : List (Fl ℝ)} {mu std : List ℝ} {nz : List Bool} {r : List β} (h : ZN.zipEntries f dot mu std nz = .ok r) :
    r.length = dot.length := by
  unfold ZN.zipEntries at h
  split at h
  · rename_i hl
    cases h
    simp only [List.length_zipWith, List.length_zip]
    omega
  · cases h

theorem ZN.size_column (mem : Nat → List (Fl ℝ)) {z z' : ZN} (h : z.core.Filled m N M ns nq) {c : Int} {vs : List (Fl ℝ)} (e : ZN.calcColumn mem z c = .ok (z', vs)) :
    z'.core.Filled m N M ns nq ∧ vs.length = queryPoints N M ns nq + 1 - m := by
  unfold ZN.calcColumn at e
  obtain ⟨zeros, e1, e⟩ := bind_ok_iff.mp e
  obtain ⟨⟨g, dot⟩, e2, e⟩ := bind_ok_iff.mp e
  obtain ⟨nzs, -, e⟩ := bind_ok_iff.mp e
  obtain ⟨mus, -, e⟩ := bind_ok_iff.mp e
  obtain ⟨stds, -, e⟩ := bind_ok_iff.mp e
  obtain ⟨f1, f2, f3⟩ := ColCache.column_frame _ _ _ _ e2
  dsimp only at e
  split at e
  · cases e
  · rename_i hl
    obtain ⟨d, e3, e⟩ := bind_ok_iff.mp e
    cases e
    refine ⟨h.frame f1 f2 f3, ?_⟩
    unfold npZeros at e1
    split at e1
    · cases e1
    · cases e1
      simp only [List.length_replicate, ne_eq, not_not] at hl
      rw [List.length_map, zipEntries_length e3, ← hl, h.m_eq, h.q_length]
      omega

theorem ZN.size_series {z z' : ZN} (h : z.core.Filled m N M ns nq) {v : List (Fl ℝ)} (e : ZN.ofCall (z.appendSeries v) = .ok z') : z'.core.Filled m N M (ns + v.length) nq := by
  unfold ZN.appendSeries at e
  split at e
  · rename_i h0
    cases e
    rw [h0]
    simpa using h
  · split at e
    · cases e
    · rename_i g d n e1
      obtain ⟨hf, -⟩ := h.pushSeries v e1
      obtain ⟨f1, f2, f3, -⟩ := ColCache.finishSeries_sizes g d n
      split at e
      · cases e
      · cases e
        exact hf.frame f1 f2 f3

theorem ZN.size_query {z z' : ZN} (h : z.core.Filled m N M ns nq) (h0 : 0 ≤ nq) {v : List (Fl ℝ)} (e : ZN.ofCall (z.appendQuery v) = .ok z') :
    z'.core.Filled m N M ns (nq + v.length) := by
  unfold ZN.appendQuery at e
  cases M with
  | none =>
    have : z.core.query = none := h.query
    rw [this] at e
    cases e
  | some M =>
    obtain ⟨r, h1, -, -⟩ := h.query
    rw [h1] at e
    dsimp only at e
    split at e
    · rename_i h0
      cases e
      rw [h0]
      simpa using h
    · split at e
      · cases e
      · rename_i g e1
        obtain ⟨hf, -⟩ := h.pushQuery h0 h1 v e1
        revert e
        generalize hp : ZN.pushStats z.qs g.m g.q v.length = r
        obtain ⟨a, b⟩ := r
        intro e
        cases b with
        | none => cases e; exact hf
        | some x => cases e
end

/-- The state of a generator of the repository, as far as lengths go. -/
def LibrarySize (m N : Nat) (M : Option Nat) (ns nq : Int) (_ch : Nat) : ColCache ℝ ⊕ ZN → Prop
  | .inl g => Eucl.SizeInv m N M ns nq g
  | .inr z => z.core.Filled m N M ns nq

end Verif
