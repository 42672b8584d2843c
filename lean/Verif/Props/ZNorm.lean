import Verif.Lemmas.ZNorm
import Verif.Props.Euclidean

/-!
# C29, C30, C31, C32, C33, C34: the z-normalised generator
-/

namespace Verif
open Spec

/-- `np.empty` returns as many elements as asked for. -/
def ZN.Mem.Ok (mem : ZN.Mem) : Prop := (∀ n, (mem.fl n).length = n) ∧ (∀ n, (mem.real n).length = n) ∧ ∀ n, (mem.bool n).length = n

namespace ZN

/-- One call on finite data (outputs discarded); an exception ends the sequence. -/
noncomputable def exec (mem : Mem) (z : ZN) : GOp ℝ → Except PyErr ZN
  | .series v => ofCall (z.appendSeries (v.map .fin))
  | .query v => ofCall (z.appendQuery (v.map .fin))
  | .column c => (calcColumn mem.fl z c).map Prod.fst
  | .diag d => (calcDiagonal z d).map fun _ => z

/-- A sequence of calls; stops at the first one that raises. -/
noncomputable def run (mem : Mem) (z : ZN) : List (GOp ℝ) → Except PyErr ZN
  | [] => .ok z
  | op :: ops => do run mem (← exec mem z op) ops

/-- A newly created generator: its window lengths and contents. -/
inductive Fresh (mem : Mem) (m : Nat) (noise : ℝ) : ZN → Nat → Option Nat → GSt ℝ → Prop
  | streaming (scale : ℚ) (N : Nat) (M : Option Nat) (z : ZN) (h1 : 1 ≤ scale) (h2 : scale ≤ 2) (hm : m ≤ N) (hM : ∀ M', M = some M' → m ≤ M')
      (h : prepareStreaming mem noise scale m N M = .ok z) : Fresh mem m noise z N M ⟨[], [], none⟩
  | batch (s : List ℝ) (q : Option (List ℝ)) (z : ZN) (hm : m ≤ s.length) (hq : ∀ q', q = some q' → m ≤ q'.length)
      (h : prepare mem noise m (s.map .fin) (q.map (·.map .fin)) = .ok z) : Fresh mem m noise z s.length (q.map (·.length)) ⟨s, q.getD s, none⟩

/-- Query statistics in step with the query window. -/
def QOk (qst : Option ZStats) (m : Nat) (M : Option Nat) (q : List ℝ) : Prop :=
  match M with
  | none => qst = none
  | some M => m ≤ M ∧ ∃ st, qst = some st ∧ StatsOk st M m q

/-- Data and statistics in step with the two windows. -/
structure Base (z : ZN) (m : Nat) (noise : ℝ) (N : Nat) (M : Option Nat) (s q : List ℝ) : Prop where
  data : z.core.Data m N M s q
  noise_eq : z.noise = noise
  sStats : StatsOk z.sStats N m s
  qStats : QOk z.qStats m M q

theorem Base.qs {z : ZN} {m : Nat} {noise : ℝ} {N : Nat} {M : Option Nat} {s q : List ℝ} (h : z.Base m noise N M s q) :
    ∃ M', StatsOk z.qs M' m q := by
  have h1 := h.qStats
  have h2 := h.data.query
  cases M with
  | none =>
    refine ⟨N, ?_⟩
    rw [ZN.qs, h1, h2.2]; exact h.sStats
  | some M =>
    obtain ⟨-, st, h3, h4⟩ := h1
    exact ⟨M, by rw [ZN.qs, h3]; exact h4⟩

/-- The cache invariant: cached dot products are exact. -/
abbrev CacheOk (z : ZN) (m N : Nat) (st : GSt ℝ) : Prop := z.core.Cache (fun a b => a * b) id Eq m N st.s st.q st.last

theorem appendSeries_ok (z : ZN) (m : Nat) (noise : ℝ) (N : Nat) (M : Option Nat) (st : GSt ℝ) (v : List ℝ) (hb : z.Base m noise N M st.s st.q) :
    ∃ z', z.appendSeries (v.map .fin) = (z', none) ∧ z'.Base m noise N M (st.step N M (.series v)).s (st.step N M (.series v)).q ∧
      (z.CacheOk m N st → z'.CacheOk m N (st.step N M (.series v))) ∧
      (v.length ≠ 0 → ∃ rb, z'.core = ColCache.finishSeries { z.core with series := rb, backlog := z.core.backlog + v.length }
        (st.s.length + v.length - N) ((v.length : Int) - (N - min N (st.s.length + v.length) : Nat))) := by
  unfold appendSeries
  rw [List.length_map]
  by_cases hv : v.length = 0
  · rw [if_pos hv]
    exact ⟨z, rfl, by simpa [GSt.step, hv] using hb, fun h => by simpa [GSt.step, hv] using h, fun h => absurd hv h⟩
  · rw [if_neg hv]
    obtain ⟨rb, h1, h2, h3⟩ := z.core.pushSeries_data m N M st.s st.q v hb.data
    obtain ⟨st', h4, h5⟩ := pushStats_ok z.sStats N m st.s v hb.data.m_pos hb.data.m_le (by omega) hb.sStats
    have hp : pushStats z.sStats z.core.m rb.items v.length = (st', none) := by rw [hb.data.m_eq, h3]; exact h4
    simp only [h1, ColCache.s, hp]
    have hfd := z.core.finishSeries_data m N M st.s st.q v hb.data rb (z.core.backlog + v.length) (st.s.length + v.length - N)
        ((v.length : Int) - (N - min N (st.s.length + v.length) : Nat)) h2 h3
    refine ⟨_, rfl, ⟨?_, hb.noise_eq, ?_, ?_⟩, fun hc => ?_, fun _ => ⟨rb, rfl⟩⟩
    · cases M <;> simpa [GSt.step, hv] using hfd
    · cases M <;> simpa [GSt.step, hv] using h5
    · have := hb.qStats
      cases M <;> simpa [GSt.step, hv, QOk] using this
    · exact z.core.finishSeries_cache m N M st v hb.data hc hv rb

theorem appendQuery_ok (z : ZN) (m : Nat) (noise : ℝ) (N M : Nat) (st : GSt ℝ) (v : List ℝ) (hb : z.Base m noise N (some M) st.s st.q) :
    ∃ z', z.appendQuery (v.map .fin) = (z', none) ∧ z'.Base m noise N (some M) (st.step N (some M) (.query v)).s (st.step N (some M) (.query v)).q ∧
      (z.CacheOk m N st → z'.CacheOk m N (st.step N (some M) (.query v))) := by
  obtain ⟨rq, hrq, -⟩ := hb.data.query
  unfold appendQuery
  simp only [hrq, List.length_map]
  by_cases hv : v.length = 0
  · rw [if_pos hv]
    exact ⟨z, rfl, by simpa [GSt.step, hv] using hb, fun h => by simpa [GSt.step, hv] using h⟩
  · rw [if_neg hv]
    obtain ⟨rq', g2, a, b, c, d, e⟩ := z.core.pushQuery_ok (F := fun a b : ℝ => a * b) (C := id) (P := Eq) m N M st v hb.data hv
    rw [hrq] at a; cases a
    obtain ⟨hmM, qst, hq1, hq2⟩ := hb.qStats
    obtain ⟨st', h4, h5⟩ := pushStats_ok qst M m st.q v hb.data.m_pos hmM (by omega) hq2
    have hqs : z.qs = qst := by rw [ZN.qs, hq1]; rfl
    simp only [b, c.m_eq, c.q_eq, hqs, h4]
    refine ⟨_, rfl, ⟨?_, hb.noise_eq, by simpa [GSt.step, hv] using hb.sStats, hmM, st', rfl, ?_⟩, fun hc => ?_⟩
    · simpa [GSt.step, hv] using c
    · simpa [GSt.step, hv] using h5
    · have := e hc
      simpa [GSt.step, hv] using this

theorem zipEntries_ok {β : Type} (f : Fl ℝ → ℝ → ℝ → Bool → β) (dot : List (Fl ℝ)) (mu std : List ℝ) (nz : List Bool) (h1 : mu.length = dot.length)
    (h2 : std.length = dot.length) (h3 : nz.length = dot.length) :
    ∃ r : List β, zipEntries f dot mu std nz = .ok r ∧ r.length = dot.length ∧
      ∀ (i : Nat) a b c d, dot[i]? = some a → mu[i]? = some b → std[i]? = some c → nz[i]? = some d → r[i]? = some (f a b c d) := by
  refine ⟨_, by rw [zipEntries, if_pos ⟨h1, h2, h3⟩], by simp [h1, h2, h3], ?_⟩
  intro i a b c d ha hb hc hd
  rw [List.getElem?_zipWith, ha]
  have : (mu.zip (std.zip nz))[i]? = some (b, c, d) := by
    rw [List.getElem?_zip_eq_some, List.getElem?_zip_eq_some]; exact ⟨hb, hc, hd⟩
  rw [this]

theorem sqrt_clamped (m : Nat) (noise : ℝ) (s q : Nat → ℝ) (i j : Nat) :
    Fl.sqrtF Real.sqrt (.fin (if znoise m noise s q i j < 1 / 10 ^ 12 then 0 else znoise m noise s q i j)) = .fin (zdist m noise s q i j) := by
  rw [Fl.sqrtF_fin]; · rfl
  split
  · exact le_rfl
  · have : (0 : ℝ) < 1 / 10 ^ 12 := by positivity
    linarith

/-- What `calc_column` makes of the dot products, whatever they are. -/
theorem calcColumn_dots (mem : Nat → List (Fl ℝ)) (z : ZN) (m : Nat) (noise : ℝ) (N : Nat) (M : Option Nat) (s q : List ℝ) (c : Nat)
    (hb : z.Base m noise N M s q) (v1 : c + m ≤ s.length) (v2 : m ≤ q.length) (g' : ColCache ℝ) (vs : List (Fl ℝ))
    (h1 : z.core.column mem dots Fl.mul c = .ok (g', vs)) (h4 : vs.length = q.length + 1 - m) :
    ∃ r, calcColumn mem z c = .ok ({ z with core := g' }, r) ∧ r.length = q.length + 1 - m ∧
      ∀ i v, i + m ≤ q.length → vs[i]? = some v → r[i]? = some (Fl.sqrtF Real.sqrt (colEntry m noise (decide (Spec.std m (seqOf s) c > flat))
        (mean m (seqOf s) c) (Spec.std m (seqOf s) c) v (mean m (seqOf q) i) (Spec.std m (seqOf q) i) (decide (Spec.std m (seqOf q) i > flat)))) := by
  obtain ⟨M', hq⟩ := hb.qs
  obtain ⟨s1, s2, s3⟩ := hb.sStats.at c v1
  have hz : npZeros (K := ℝ) ((z.core.q.length : Int) - z.core.m + 1) = .ok (List.replicate (q.length + 1 - m) (.fin 0)) := by
    rw [hb.data.q_eq, List.length_map, hb.data.m_eq]
    unfold npZeros
    rw [if_neg (by omega)]
    congr 2; omega
  obtain ⟨r, hr1, hr2, hr3⟩ := zipEntries_ok (colEntry z.core.m z.noise (decide (Spec.std m (seqOf s) c > flat)) (mean m (seqOf s) c)
    (Spec.std m (seqOf s) c)) vs z.qs.mu.items z.qs.std.items z.qs.nz.items (by rw [hq.len.1, h4]) (by rw [hq.len.2.1, h4]) (by rw [hq.len.2.2, h4])
  refine ⟨r.map (Fl.sqrtF Real.sqrt), ?_, by rw [List.length_map, hr2, h4], ?_⟩
  · unfold calcColumn
    simp only [hz, h1, pyGet_at _ _ _ s1, pyGet_at _ _ _ s2, pyGet_at _ _ _ s3, hr1, bind, Except.bind, pure, Except.pure,
      List.length_replicate, h4, ne_eq, not_true_eq_false, if_false]
  · intro i v hi hv1
    obtain ⟨q1, q2, q3⟩ := hq.at i hi
    have he := hr3 i _ _ _ _ hv1 q1 q2 q3
    rw [hb.data.m_eq, hb.noise_eq, Int.cast_natCast] at he
    rw [List.getElem?_map, he, Option.map_some]

theorem calcColumn_ok (mem : Mem) (hmem : mem.Ok) (z : ZN) (m : Nat) (noise : ℝ) (N : Nat) (M : Option Nat) (st : GSt ℝ) (c : Nat)
    (hb : z.Base m noise N M st.s st.q) (hc : z.CacheOk m N st) (hv : st.Valid m M (.column c)) (hsafe : st.Safe (.column c)) :
    ∃ z', calcColumn mem.fl z c = .ok (z', (List.range (st.q.length - m + 1)).map fun i => .fin (zdist m noise (seqOf st.s) (seqOf st.q) i c)) ∧
      z'.Base m noise N M st.s st.q ∧ z'.CacheOk m N (st.step N M (.column c)) := by
  obtain ⟨v1, v2⟩ := hv
  obtain ⟨g', vs, h1, h2, h3, -, h4, h5⟩ := z.core.column_ok (term := Fl.mul) (mem := mem.fl) m N M st.s st.q st.last c dots_spec hmem.1
    (fun x y => rfl) (fun a b => mul_comm a b) (fun v d a b h => by rw [h]) hb.data hc v1 v2 hsafe (fun i j _ _ => rfl)
  obtain ⟨r, hr1, hr2, hr3⟩ := z.calcColumn_dots mem.fl m noise N M st.s st.q c hb v1 v2 g' vs h1 h4
  refine ⟨{ z with core := g' }, ?_, ⟨h2, hb.noise_eq, hb.sStats, hb.qStats⟩, h3⟩
  rw [hr1]
  congr 2
  apply List.ext_getElem?
  intro i
  by_cases hi : i + m ≤ st.q.length
  · obtain ⟨v, hv1, hv2⟩ := h5 i hi
    rw [hr3 i _ hi hv1, hv2, pairSum_windows _ m st.s st.q i c v1 hi, (entry_value m hb.data.m_pos noise _ _ i c).1, sqrt_clamped, List.getElem?_map,
      List.getElem?_range (by omega)]
    rfl
  · rw [List.getElem?_eq_none (by rw [hr2]; omega), List.getElem?_eq_none (by simp; omega)]

theorem pySlice_at {α : Type} (l : List α) (a n : Nat) (i : Nat) (h : i < n) : (pySlice l (a : Int) ((a : Int) + (n : Int)))[i]? = l[a + i]? := by
  rw [pySlice_window, List.getElem?_take, if_pos h, List.getElem?_drop]

theorem calcDiagonal_ok (z : ZN) (m : Nat) (noise : ℝ) (N : Nat) (M : Option Nat) (st : GSt ℝ) (d : Int)
    (hb : z.Base m noise N M st.s st.q) (hv : st.Valid m M (.diag d)) :
    calcDiagonal z d = .ok ((List.range (diagEntries m st.q.length st.s.length d)).map fun k =>
      .fin (zdist m noise (seqOf st.s) (seqOf st.q) ((-d).toNat + k) (d.toNat + k))) := by
  obtain ⟨v1, v2, v3, v4⟩ := hv
  have hm0 := hb.data.m_pos
  obtain ⟨n, hn1, hn2, hn3⟩ := diagLength_valid m _ _ d v1 v2 v3 v4
  set l := List.zipWith (fun a b : ℝ => a * b) ((st.q.drop (-d).toNat).take n) ((st.s.drop d.toNat).take n) with hl
  have hl2 : l.length = n := by rw [hl]; simp; omega
  have hcd := cumsum_diff l m (by rw [hl2]; exact hn3)
  rw [hl2] at hcd
  have hql : z.core.q.length = st.q.length := by rw [hb.data.q_eq, List.length_map]
  have hsl : z.core.s.length = st.s.length := by rw [hb.data.s_eq, List.length_map]
  have hdlr : ((n : Int) - (m : Int) + 1) = ((n + 1 - m : Nat) : Int) := by omega
  have hz : npZeros (K := ℝ) (((n + 1 - m : Nat) : Int)) = .ok (List.replicate (n + 1 - m) (.fin 0)) := by
    unfold npZeros
    rw [if_neg (by omega)]; rfl
  have hst : diagStart d = (((-d).toNat : Int), (d.toNat : Int)) := by
    unfold diagStart
    split
    · rw [Prod.mk.injEq]; constructor <;> omega
    · rw [Prod.mk.injEq]; constructor <;> omega
  obtain ⟨M', hq⟩ := hb.qs
  have hs := hb.sStats
  set dot : List (Fl ℝ) := (List.range (n + 1 - m)).map fun k => .fin ((l.drop k).take m).sum with hdot
  have hdl : dot.length = n + 1 - m := by rw [hdot]; simp
  have slen : ∀ {α : Type} (l : List α) (a : Nat), a + (n + 1 - m) ≤ l.length → (pySlice l (a : Int) ((a : Int) + ((n + 1 - m : Nat) : Int))).length = dot.length := by
    intro α l a h
    rw [pySlice_window, List.length_take, List.length_drop, hdl]; omega
  have hqe : (-d).toNat + (n + 1 - m) ≤ st.q.length + 1 - m := by omega
  have hse : d.toNat + (n + 1 - m) ≤ st.s.length + 1 - m := by omega
  obtain ⟨f, f1, f2, f3⟩ := zipEntries_ok (fun d mu std nz => diagEntry z.core.m z.noise d mu std nz) dot
    (pySlice z.qs.mu.items ((-d).toNat : Int) (((-d).toNat : Int) + ((n + 1 - m : Nat) : Int)))
    (pySlice z.qs.std.items ((-d).toNat : Int) (((-d).toNat : Int) + ((n + 1 - m : Nat) : Int)))
    (pySlice z.qs.nz.items ((-d).toNat : Int) (((-d).toNat : Int) + ((n + 1 - m : Nat) : Int)))
    (slen _ _ (by rw [hq.len.1]; exact hqe)) (slen _ _ (by rw [hq.len.2.1]; exact hqe)) (slen _ _ (by rw [hq.len.2.2]; exact hqe))
  obtain ⟨e, e1, e2, e3⟩ := zipEntries_ok (fun _ mu std nz => (mu, std, nz)) dot
    (pySlice z.sStats.mu.items (d.toNat : Int) ((d.toNat : Int) + ((n + 1 - m : Nat) : Int)))
    (pySlice z.sStats.std.items (d.toNat : Int) ((d.toNat : Int) + ((n + 1 - m : Nat) : Int)))
    (pySlice z.sStats.nz.items (d.toNat : Int) ((d.toNat : Int) + ((n + 1 - m : Nat) : Int)))
    (slen _ _ (by rw [hs.len.1]; exact hse)) (slen _ _ (by rw [hs.len.2.1]; exact hse)) (slen _ _ (by rw [hs.len.2.2]; exact hse))
  unfold calcDiagonal
  simp only [hql, hsl, hn1, bind, Except.bind, pure, Except.pure,
    z.core.diagPoints_ok Fl.mul (fun a b => a * b) Fl.mul_fin m N M _ _ hb.data d n hn2, ← hl, cumsum0_ok _ n hl2, hst, hb.data.m_eq, hdlr,
    pyTo_nat, hcd, hz, List.length_replicate]
  rw [hb.data.m_eq] at f1 f3
  simp only [f1, e1, hdl, ne_eq, not_true_eq_false, if_false]
  congr 1
  rw [show diagEntries m st.q.length st.s.length d = n + 1 - m by rw [diagEntries, hn2]]
  apply List.ext_getElem?
  intro k
  by_cases hk : k < n + 1 - m
  · obtain ⟨q1, q2, q3⟩ := hq.at ((-d).toNat + k) (by omega)
    obtain ⟨s1, s2, s3⟩ := hs.at (d.toNat + k) (by omega)
    have hdk : dot[k]? = some (.fin (∑ x ∈ Finset.range m, seqOf st.s (d.toNat + k + x) * seqOf st.q ((-d).toNat + k + x))) := by
      rw [hdot, List.getElem?_map, List.getElem?_range hk, Option.map_some, hl,
        diag_sums _ st.q st.s _ _ n m k (by omega) (by omega) (by omega)]
      congr 2
      exact Finset.sum_congr rfl fun x _ => mul_comm _ _
    have hf := f3 k _ _ _ _ hdk (by rw [pySlice_at _ _ _ _ hk]; exact q1) (by rw [pySlice_at _ _ _ _ hk]; exact q2) (by rw [pySlice_at _ _ _ _ hk]; exact q3)
    have he := e3 k _ _ _ _ hdk (by rw [pySlice_at _ _ _ _ hk]; exact s1) (by rw [pySlice_at _ _ _ _ hk]; exact s2) (by rw [pySlice_at _ _ _ _ hk]; exact s3)
    rw [List.getElem?_map, List.getElem?_zipWith, hf, he, List.getElem?_map, List.getElem?_range hk]
    simp only [Option.map_some]
    rw [hb.noise_eq, Int.cast_natCast, (entry_value m hm0 noise (seqOf st.s) (seqOf st.q) ((-d).toNat + k) (d.toNat + k)).2, sqrt_clamped]
  · rw [List.getElem?_eq_none (by simp [f2, e2, hdl]; omega), List.getElem?_eq_none (by simp; omega)]

/-- The last two lines of the calculation of one entry. -/
theorem calcSingle_ok (z : ZN) (m : Nat) (noise : ℝ) (N : Nat) (M : Option Nat) (s q : List ℝ) (r c : Nat) (hb : z.Base m noise N M s q)
    (hr : r + m ≤ q.length) (hc : c + m ≤ s.length) (dp : Option (Fl ℝ))
    (hdp : dp = none ∨ dp = some (.fin (∑ k ∈ Finset.range m, seqOf s (c + k) * seqOf q (r + k)))) :
    calcSingle z r c dp = .ok (.fin (zdist m noise (seqOf s) (seqOf q) r c)) := by
  obtain ⟨M', hq⟩ := hb.qs
  obtain ⟨q1, q2, q3⟩ := hq.at r hr
  obtain ⟨s1, s2, s3⟩ := hb.sStats.at c hc
  have hdot : calcSingle.singleDot z r c dp = .ok (.fin (∑ k ∈ Finset.range m, seqOf s (c + k) * seqOf q (r + k))) := by
    have hcalc : npZip Fl.mul (pySlice z.core.q r (r + z.core.m)) (pySlice z.core.s c (c + z.core.m)) =
        .ok ((List.zipWith (fun a b : ℝ => a * b) ((q.drop r).take m) ((s.drop c).take m)).map .fin) := by
      rw [hb.data.m_eq, pySlice_window, pySlice_window, hb.data.q_eq, hb.data.s_eq, npZip_ok _ _ _ (by simp; omega), ← List.map_drop,
        ← List.map_take, ← List.map_drop, ← List.map_take, zipWith_fin Fl.mul (fun a b => a * b) Fl.mul_fin]
    have hval : (List.zipWith (fun a b : ℝ => a * b) ((q.drop r).take m) ((s.drop c).take m)).sum =
        ∑ k ∈ Finset.range m, seqOf s (c + k) * seqOf q (r + k) := by
      have h := pairSum_windows (fun a b : ℝ => a * b) m q s c r hr hc
      rw [pairSum] at h
      rw [h]
      exact Finset.sum_congr rfl fun x _ => mul_comm _ _
    unfold calcSingle.singleDot
    split
    · simp only [hcalc, bind, Except.bind, pure, Except.pure, Fl.sum_fin, hval]
    · rename_i h
      rcases hdp with h' | h'
      · exact absurd (Or.inl h') h
      · rw [h']; rfl
  have he := (entry_value m hb.data.m_pos noise (seqOf s) (seqOf q) r c).1
  have hfin := sqrt_clamped m noise (seqOf s) (seqOf q) r c
  rw [← he] at hfin
  rw [← hfin]
  unfold calcSingle calcSingle.singleSq
  simp only [pyGet_at _ _ _ q1, pyGet_at _ _ _ q2, pyGet_at _ _ _ s1, pyGet_at _ _ _ s2, bind, Except.bind, pure, Except.pure, hdot,
    hb.data.m_eq, hb.noise_eq, Int.cast_natCast]
  have hs0 : Fl.sqrtF Real.sqrt (.fin 0) = .fin 0 := by rw [Fl.sqrtF_fin _ _ le_rfl, Real.sqrt_zero]
  have heps : (0 : ℝ) < eps := by unfold eps; positivity
  have hz : (Fl.fin (0 : ℝ)).ltF (.fin eps) = true := by simp [Fl.ltF, heps]
  unfold colEntry
  by_cases h1 : Spec.std m (seqOf s) c > flat <;> by_cases h2 : Spec.std m (seqOf q) r > flat
  · have h1' := not_le.mpr h1
    have h2' := not_le.mpr h2
    simp only [h1, h2, h1', h2', and_self, or_self, if_false, decide_true, if_true, Bool.or_self]
    congr 1
    split <;> split <;> simp_all
  · have h1' := not_le.mpr h1
    have h2' := not_lt.mp h2
    simp only [h1, h2, h1', h2', and_false, or_false, if_false, decide_true, if_true, decide_false, Bool.or_false, Bool.false_eq_true]
    congr 1
    split <;> split <;> simp_all
  · have h1' := not_lt.mp h1
    have h2' := not_le.mpr h2
    simp only [h1, h2, h1', h2', false_and, or_true, if_false, decide_true, if_true, decide_false, Bool.or_true, Bool.false_eq_true]
    congr 1
    split <;> split <;> simp_all
  · have h1' := not_lt.mp h1
    have h2' := not_lt.mp h2
    simp only [h1, h2, h1', h2', and_self, if_false, if_true, decide_false, Bool.false_eq_true, Bool.or_self]
    simp [hz, hs0]

/-! ### Histories -/

theorem Base.frame {z : ZN} {m : Nat} {noise : ℝ} {N : Nat} {M : Option Nat} {s q : List ℝ} (h : z.Base m noise N M s q) {g' : ColCache ℝ}
    (hf : g'.series = z.core.series ∧ g'.query = z.core.query ∧ g'.m = z.core.m) : ({ z with core := g' } : ZN).Base m noise N M s q :=
  ⟨h.data.frame hf, h.noise_eq, h.sStats, h.qStats⟩

theorem calcColumn_frame (mem : Nat → List (Fl ℝ)) (z z' : ZN) (c : Int) (vs : List (Fl ℝ)) (h : calcColumn mem z c = .ok (z', vs)) :
    ∃ g', z' = { z with core := g' } ∧ g'.series = z.core.series ∧ g'.query = z.core.query ∧ g'.m = z.core.m := by
  unfold calcColumn at h
  simp only [bind, Except.bind, pure, Except.pure] at h
  split at h
  · cases h
  · split at h
    · cases h
    · rename_i r hr
      repeat' (split at h; · cases h)
      cases h
      exact ⟨_, rfl, z.core.column_frame _ c _ hr⟩

/-- Calls that succeed keep data and statistics in step with the windows. -/
theorem exec_base (mem : Mem) (z z' : ZN) (m : Nat) (noise : ℝ) (N : Nat) (M : Option Nat) (st : GSt ℝ) (op : GOp ℝ)
    (hb : z.Base m noise N M st.s st.q) (h : exec mem z op = .ok z') :
    z'.Base m noise N M (st.step N M op).s (st.step N M op).q := by
  cases op with
  | series v =>
    obtain ⟨z1, h1, h2, -, -⟩ := z.appendSeries_ok m noise N M st v hb
    simp only [exec, h1, ofCall] at h; cases h; exact h2
  | query v =>
    cases M with
    | none =>
      have := hb.data.query.1
      simp only [exec, appendQuery, this, ofCall] at h; cases h
    | some M =>
      obtain ⟨z1, h1, h2, -⟩ := z.appendQuery_ok m noise N M st v hb
      simp only [exec, h1, ofCall] at h; cases h; exact h2
  | column c =>
    simp only [exec] at h
    cases hcol : calcColumn mem.fl z c with
    | error e => rw [hcol] at h; cases h
    | ok r =>
      rw [hcol] at h; cases h
      obtain ⟨g', h1, h2⟩ := calcColumn_frame mem.fl z r.1 c r.2 hcol
      rw [h1]; exact hb.frame h2
  | diag d =>
    simp only [exec] at h
    cases hcol : calcDiagonal z d with
    | error e => rw [hcol] at h; cases h
    | ok r => rw [hcol] at h; cases h; exact hb

theorem run_base (mem : Mem) (z z' : ZN) (m : Nat) (noise : ℝ) (N : Nat) (M : Option Nat) (st : GSt ℝ) (ops : List (GOp ℝ))
    (hb : z.Base m noise N M st.s st.q) (h : run mem z ops = .ok z') : z'.Base m noise N M (st.run N M ops).s (st.run N M ops).q := by
  induction ops generalizing z st with
  | nil => cases h; exact hb
  | cons op ops ih =>
    simp only [run, bind, Except.bind] at h
    cases he : exec mem z op with
    | error e => rw [he] at h; cases h
    | ok g1 =>
      rw [he] at h
      exact ih g1 (st.step N M op) (exec_base mem z g1 m noise N M st op hb he) h

theorem exec_cache (mem : Mem) (hmem : mem.Ok) (z : ZN) (m : Nat) (noise : ℝ) (N : Nat) (M : Option Nat) (st : GSt ℝ) (op : GOp ℝ)
    (hb : z.Base m noise N M st.s st.q) (hc : z.CacheOk m N st) (hv : st.Valid m M op) (hsafe : st.Safe op) :
    ∃ z', exec mem z op = .ok z' ∧ z'.CacheOk m N (st.step N M op) := by
  cases op with
  | series v =>
    obtain ⟨z1, h1, -, h2, -⟩ := z.appendSeries_ok m noise N M st v hb
    exact ⟨z1, by simp only [exec, h1, ofCall], h2 hc⟩
  | query v =>
    cases M with
    | none => exact absurd rfl hv
    | some M =>
      obtain ⟨z1, h1, -, h2⟩ := z.appendQuery_ok m noise N M st v hb
      exact ⟨z1, by simp only [exec, h1, ofCall], h2 hc⟩
  | column c =>
    obtain ⟨z', h1, -, h2⟩ := z.calcColumn_ok mem hmem m noise N M st c hb hc hv hsafe
    exact ⟨z', by simp [exec, h1, Except.map], h2⟩
  | diag d =>
    exact ⟨z, by rw [exec, z.calcDiagonal_ok m noise N M st d hb hv]; rfl, hc⟩

theorem run_cache (mem : Mem) (hmem : mem.Ok) (z : ZN) (m : Nat) (noise : ℝ) (N : Nat) (M : Option Nat) (st : GSt ℝ) (ops : List (GOp ℝ))
    (hb : z.Base m noise N M st.s st.q) (hc : z.CacheOk m N st) (hok : st.All N M (fun st op => st.Valid m M op ∧ st.Safe op) ops) :
    ∃ z', run mem z ops = .ok z' ∧ z'.Base m noise N M (st.run N M ops).s (st.run N M ops).q ∧ z'.CacheOk m N (st.run N M ops) := by
  induction ops generalizing z st with
  | nil => exact ⟨z, rfl, hb, hc⟩
  | cons op ops ih =>
    obtain ⟨z1, h1, h2⟩ := exec_cache mem hmem z m noise N M st op hb hc hok.1.1 hok.1.2
    obtain ⟨z2, h3, h4⟩ := ih z1 (st.step N M op) (exec_base mem z z1 m noise N M st op hb h1) h2 hok.2
    exact ⟨z2, by simp only [run, h1, bind, Except.bind]; exact h3, h4⟩

theorem prepareStreaming_ok (mem : Mem) (hmem : mem.Ok) (noise : ℝ) (scale : ℚ) (h1 : 1 ≤ scale) (h2 : scale ≤ 2) (m : Nat) (hm0 : 0 < m) (N : Nat)
    (M : Option Nat) (hm : m ≤ N) (hM : ∀ M', M = some M' → m ≤ M') :
    ∃ z, prepareStreaming mem noise scale m N M = .ok z ∧ z.Base m noise N M [] [] ∧ z.core.firstRow = none ∧ z.core.prevIdx = none := by
  obtain ⟨ss, s1, s2⟩ := emptyStats_ok mem hmem.2.1 hmem.2.2 scale h1 h2 N m hm0 hm
  unfold prepareStreaming
  simp only [s1, bind, Except.bind, pure, Except.pure]
  cases M with
  | none =>
    simp only [emptyQStats]
    exact ⟨_, rfl, ⟨⟨rfl, hm0, hm, RB.mkEmpty_good_scale scale h1 h2 [] N _ (by omega) (hmem.1 _), RB.mkEmpty_items _ _ _, rfl, rfl⟩, rfl, s2, rfl⟩, rfl, rfl⟩
  | some M =>
    have hM := hM M rfl
    obtain ⟨qs, q1, q2⟩ := emptyStats_ok mem hmem.2.1 hmem.2.2 scale h1 h2 M m hm0 hM
    simp only [emptyQStats, q1, Except.map]
    exact ⟨_, rfl, ⟨⟨rfl, hm0, hm, RB.mkEmpty_good_scale scale h1 h2 [] N _ (by omega) (hmem.1 _), RB.mkEmpty_items _ _ _, _, rfl,
      RB.mkEmpty_good_scale scale h1 h2 [] M _ (by omega) (hmem.1 _), RB.mkEmpty_items _ _ _⟩, rfl, s2, hM, _, rfl, q2⟩, rfl, rfl⟩

theorem noCache (z : ZN) (m N : Nat) (s q : List ℝ) (h1 : z.core.firstRow = none) (h2 : z.core.prevIdx = none) : z.CacheOk m N ⟨s, q, none⟩ :=
  ⟨fun fr hfr => (by rw [h1] at hfr; cases hfr), h2⟩

/-- Preparing a generator for finite data succeeds. -/
theorem prepare_ok (mem : Mem) (hmem : mem.Ok) (noise : ℝ) (m : Nat) (hm0 : 0 < m) (s : List ℝ) (q : Option (List ℝ)) (hm : m ≤ s.length)
    (hq : ∀ q', q = some q' → m ≤ q'.length) :
    ∃ z, prepare mem noise m (s.map .fin) (q.map (·.map .fin)) = .ok z ∧ z.Base m noise s.length (q.map (·.length)) s (q.getD s) ∧
      z.CacheOk m s.length ⟨s, q.getD s, none⟩ := by
  have hs0 : s.length ≠ 0 := by omega
  unfold prepare
  cases q with
  | none =>
    obtain ⟨z, h1, h2, h3, h4⟩ := prepareStreaming_ok mem hmem noise 1 le_rfl (by norm_num) m hm0 s.length none hm (by simp)
    obtain ⟨z1, h5, h6, h7, -⟩ := z.appendSeries_ok m noise s.length none ⟨[], [], none⟩ s h2
    simp only [List.length_map, Option.map_none, h1, h5, ofCall, bind, Except.bind, pure, Except.pure]
    refine ⟨z1, rfl, ?_, ?_⟩
    · simpa [GSt.step, hs0, lastN_of_le] using h6
    · simpa [GSt.step, hs0, lastN_of_le] using h7 (z.noCache m _ _ _ h3 h4)
  | some q =>
    have hq := hq q rfl
    have hq0 : q.length ≠ 0 := by omega
    obtain ⟨z, h1, h2, h3, h4⟩ := prepareStreaming_ok mem hmem noise 1 le_rfl (by norm_num) m hm0 s.length (some q.length) hm (by intro M' h; cases h; exact hq)
    obtain ⟨z1, h5, h6, h7, -⟩ := z.appendSeries_ok m noise s.length (some q.length) ⟨[], [], none⟩ s h2
    obtain ⟨z2, h8, h9, h10⟩ := z1.appendQuery_ok m noise s.length q.length _ q h6
    simp only [List.length_map, Option.map_some, h1, h5, h8, ofCall, bind, Except.bind]
    refine ⟨z2, rfl, ?_, ?_⟩
    · simpa [GSt.step, hs0, hq0, lastN_of_le] using h9
    · simpa [GSt.step, hs0, hq0, lastN_of_le] using h10 (h7 (z.noCache m _ _ _ h3 h4))

theorem Fresh.base {mem : Mem} (hmem : mem.Ok) {m : Nat} {noise : ℝ} {z : ZN} {N : Nat} {M : Option Nat} {st : GSt ℝ} (hm0 : 0 < m)
    (h : Fresh mem m noise z N M st) : z.Base m noise N M st.s st.q ∧ z.CacheOk m N st := by
  cases h with
  | streaming scale N M z h1 h2 hm hM h =>
    obtain ⟨z', a, b, c, d⟩ := prepareStreaming_ok mem hmem noise scale h1 h2 m hm0 N M hm hM
    rw [a] at h; cases h
    exact ⟨b, z.noCache m N _ _ c d⟩
  | batch s q z hm hq h =>
    obtain ⟨z', a, b, c⟩ := prepare_ok mem hmem noise m hm0 s q hm hq
    rw [a] at h; cases h
    exact ⟨b, c⟩

/-! ### Statistics for arbitrary data -/

/-- One call on arbitrary data, NaN and infinities included (outputs discarded). -/
noncomputable def execRaw (mem : Mem) (z : ZN) : GOp (Fl ℝ) → Except PyErr ZN
  | .series v => ofCall (z.appendSeries v)
  | .query v => ofCall (z.appendQuery v)
  | .column c => (calcColumn mem.fl z c).map Prod.fst
  | .diag d => (calcDiagonal z d).map fun _ => z

/-- A sequence of calls; stops at the first one that raises. -/
noncomputable def runRaw (mem : Mem) (z : ZN) : List (GOp (Fl ℝ)) → Except PyErr ZN
  | [] => .ok z
  | op :: ops => do runRaw mem (← execRaw mem z op) ops

/-- Statistics in step with a window that may hold non-finite values only while shorter than `m`. -/
def RawStats (st : ZStats) (N m : Nat) (s : List (Fl ℝ)) : Prop :=
  (s.length < m ∧ StatsOk st N m []) ∨ (m ≤ s.length ∧ ∃ x, s = x.map .fin ∧ StatsOk st N m x)

theorem pushStats_raw (st st' : ZStats) (N m : Nat) (s d : List (Fl ℝ)) (hm : 0 < m) (hN : m ≤ N) (hd : 0 < d.length) (h : RawStats st N m s)
    (hp : pushStats st m (lastN N (s ++ d)) d.length = (st', none)) : RawStats st' N m (lastN N (s ++ d)) := by
  by_cases hlen : m ≤ (lastN N (s ++ d)).length
  · have hfrom : pyFrom (lastN N (s ++ d)) (-((d.length : Int) + (m : Int) - 1)) = lastN (d.length + m - 1) (lastN N (s ++ d)) := by
      rw [show -((d.length : Int) + (m : Int) - 1) = -((d.length + m - 1 : Nat) : Int) by omega, pyFrom_neg _ _ (by omega)]
    have hfin : ∀ a ∈ lastN (d.length + m - 1) (lastN N (s ++ d)), a.isFinite = true := by
      intro a ha
      by_contra hne
      obtain ⟨e, he⟩ := slidingGuard_err (lastN (d.length + m - 1) (lastN N (s ++ d))) m (Or.inr (Or.inr ⟨a, ha, by simpa using hne⟩))
      unfold pushStats at hp
      rw [if_pos (by exact_mod_cast hlen), hfrom] at hp
      simp only [slidingMeanStd, he, bind, Except.bind] at hp
      cases hp
    -- the whole window is finite
    have hall : ∀ a ∈ lastN N (s ++ d), a.isFinite = true := by
      rcases h with ⟨h1, -⟩ | ⟨h1, x, hx, -⟩
      · have : lastN (d.length + m - 1) (lastN N (s ++ d)) = lastN N (s ++ d) := lastN_of_le _ _ (by rw [lastN_length, List.length_append]; omega)
        rw [this] at hfin; exact hfin
      · intro a ha
        by_cases hNd : N ≤ d.length
        · apply hfin
          rw [lastN_of_le _ _ (by rw [lastN_length]; omega)]; exact ha
        · rw [lastN_append] at ha
          rcases List.mem_append.mp ha with ha | ha
          · have : a ∈ s := List.mem_of_mem_drop ha
            rw [hx] at this
            obtain ⟨r, -, rfl⟩ := List.mem_map.mp this
            rfl
          · apply hfin
            rw [lastN_append N, lastN_append]
            refine List.mem_append_right _ ?_
            rw [lastN_of_le N d (by omega), lastN_of_le _ _ (by omega)]
            rw [lastN_of_le N d (by omega)] at ha
            exact ha
    obtain ⟨w, hw⟩ := (all_isFinite_iff _).mp (List.all_eq_true.mpr hall)
    -- replace what was dropped by finite numbers
    have hreal : lastN N (s.map Fl.toReal ++ d.map Fl.toReal) = w := by
      rw [← List.map_append, lastN_map, hw, map_toReal_fin]
    have hold : StatsOk st N m (s.map Fl.toReal) := by
      rcases h with ⟨h1, h2⟩ | ⟨h1, x, hx, h2⟩
      · have e1 : windows m (s.map Fl.toReal) = [] := windows_eq_nil _ _ (by rw [List.length_map]; exact h1)
        have e2 : windows m ([] : List ℝ) = [] := windows_eq_nil _ _ (by simpa using hm)
        exact ⟨h2.mu, h2.std, h2.nz, by rw [h2.mu_eq, e1, e2], by rw [h2.std_eq, e1, e2], by rw [h2.nz_eq, e1, e2]⟩
      · rw [hx, map_toReal_fin]; exact h2
    obtain ⟨st2, p1, p2⟩ := pushStats_ok st N m (s.map Fl.toReal) (d.map Fl.toReal) hm hN (by rw [List.length_map]; exact hd) hold
    rw [hreal, ← hw, List.length_map, hp] at p1
    cases p1
    rw [hreal] at p2
    exact Or.inr ⟨hlen, w, hw, p2⟩
  · unfold pushStats at hp
    rw [if_neg (by exact_mod_cast hlen)] at hp
    cases hp
    rw [lastN_length, List.length_append] at hlen
    rcases h with ⟨-, h2⟩ | ⟨h1, -⟩
    · exact Or.inl ⟨by rw [lastN_length, List.length_append]; omega, h2⟩
    · omega

/-- Invariant for arbitrary data. -/
structure RawInv (z : ZN) (m N : Nat) (M : Option Nat) (s q : List (Fl ℝ)) : Prop where
  m_eq : z.core.m = m
  m_pos : 0 < m
  m_le : m ≤ N
  series : z.core.series.Good N
  s_eq : z.core.s = s
  sStats : RawStats z.sStats N m s
  query : (M = none ∧ z.core.query = none ∧ q = s ∧ z.qStats = none) ∨
    ∃ M' rb st, M = some M' ∧ m ≤ M' ∧ z.core.query = some rb ∧ rb.Good M' ∧ rb.items = q ∧ z.qStats = some st ∧ RawStats st M' m q

theorem execRaw_inv (mem : Mem) (z z' : ZN) (m N : Nat) (M : Option Nat) (st : GSt (Fl ℝ)) (op : GOp (Fl ℝ))
    (hb : z.RawInv m N M st.s st.q) (h : execRaw mem z op = .ok z') : z'.RawInv m N M (st.step N M op).s (st.step N M op).q := by
  cases op with
  | series v =>
    simp only [execRaw, appendSeries] at h
    by_cases hv : v.length = 0
    · rw [if_pos hv] at h; cases h
      simpa [GSt.step, hv] using hb
    · rw [if_neg hv] at h
      obtain ⟨rb, h1, h2, h3, -⟩ := hb.series.push v
      have hs : z.core.series.items = st.s := hb.s_eq
      rw [hs] at h3
      simp only [ColCache.pushSeries, h1, bind, Except.bind, pure, Except.pure, ColCache.s, hb.m_eq, h3] at h
      cases hps : pushStats z.sStats m (lastN N (st.s ++ v)) v.length with
      | mk st1 o =>
        rw [hps] at h
        cases o with
        | some e => cases h
        | none =>
          have hst := pushStats_raw _ _ N m _ _ hb.m_pos hb.m_le (by omega) hb.sStats hps
          cases h
          rcases hb.query with ⟨rfl, q1, q2, q3⟩ | ⟨M', rq, qst, rfl, q1, q2, q3, q4, q5, q6⟩
          · simp only [GSt.step, if_neg hv]
            refine ⟨?_, hb.m_pos, hb.m_le, ?_, ?_, hst, Or.inl ⟨rfl, ?_, rfl, q3⟩⟩ <;>
              simp only [ColCache.finishSeries, q1, ColCache.s]
            · exact h2
            · exact h3
          · simp only [GSt.step, if_neg hv]
            refine ⟨?_, hb.m_pos, hb.m_le, ?_, ?_, hst, Or.inr ⟨M', rq, qst, rfl, q1, ?_, q3, q4, q5, q6⟩⟩ <;>
              simp only [ColCache.finishSeries, q2, ColCache.s]
            · exact h2
            · exact h3
  | query v =>
    rcases hb.query with ⟨rfl, q1, q2, q3⟩ | ⟨M', rq, qst, rfl, q1, q2, q3, q4, q5, q6⟩
    · simp only [execRaw, appendQuery, q1, ofCall] at h; cases h
    · simp only [execRaw, appendQuery, q2] at h
      by_cases hv : v.length = 0
      · rw [if_pos hv] at h; cases h
        simpa [GSt.step, hv] using hb
      · rw [if_neg hv] at h
        obtain ⟨rb, h1, h2, h3, -⟩ := q3.push v
        rw [q4] at h3
        have hqs : z.qs = qst := by rw [ZN.qs, q5]; rfl
        simp only [ColCache.pushQuery, h1, bind, Except.bind, pure, Except.pure, ColCache.q, Option.getD_some, hb.m_eq, h3, hqs] at h
        cases hps : pushStats qst m (lastN M' (st.q ++ v)) v.length with
        | mk st1 o =>
          rw [hps] at h
          cases o with
          | some e => cases h
          | none =>
            have hst := pushStats_raw _ _ M' m _ _ hb.m_pos q1 (by omega) q6 hps
            cases h
            simp only [GSt.step, if_neg hv]
            exact ⟨rfl, hb.m_pos, hb.m_le, hb.series, hb.s_eq, hb.sStats, Or.inr ⟨M', rb, st1, rfl, q1, rfl, h2, h3, rfl, hst⟩⟩
  | column c =>
    simp only [execRaw] at h
    cases hcol : calcColumn mem.fl z c with
    | error e => rw [hcol] at h; cases h
    | ok r =>
      rw [hcol] at h; cases h
      obtain ⟨g', h1, h2, h3, h4⟩ := calcColumn_frame mem.fl z r.1 c r.2 hcol
      rw [h1]
      exact ⟨by rw [← hb.m_eq]; exact h4, hb.m_pos, hb.m_le, by simp only [h2]; exact hb.series, by simp only [ColCache.s, h2]; exact hb.s_eq, hb.sStats,
        by simp only [h3]; exact hb.query⟩
  | diag d =>
    simp only [execRaw] at h
    cases hcol : calcDiagonal z d with
    | error e => rw [hcol] at h; cases h
    | ok r => rw [hcol] at h; cases h; exact hb

theorem runRaw_inv (mem : Mem) (z z' : ZN) (m N : Nat) (M : Option Nat) (st : GSt (Fl ℝ)) (ops : List (GOp (Fl ℝ)))
    (hb : z.RawInv m N M st.s st.q) (h : runRaw mem z ops = .ok z') : z'.RawInv m N M (st.run N M ops).s (st.run N M ops).q := by
  induction ops generalizing z st with
  | nil => cases h; exact hb
  | cons op ops ih =>
    simp only [runRaw, bind, Except.bind] at h
    cases he : execRaw mem z op with
    | error e => rw [he] at h; cases h
    | ok g1 =>
      rw [he] at h
      exact ih g1 (st.step N M op) (execRaw_inv mem z g1 m N M st op hb he) h

theorem RawStats.of_ok {st : ZStats} {N m : Nat} {x : List ℝ} (hm : 0 < m) (h : StatsOk st N m x) : RawStats st N m (x.map .fin) := by
  by_cases hx : m ≤ x.length
  · exact Or.inr ⟨by simpa using hx, x, rfl, h⟩
  · have e1 : windows m x = [] := windows_eq_nil _ _ (by omega)
    have e2 : windows m ([] : List ℝ) = [] := windows_eq_nil _ _ (by simpa using hm)
    exact Or.inl ⟨by simpa using hx, h.mu, h.std, h.nz, by rw [h.mu_eq, e1, e2], by rw [h.std_eq, e1, e2], by rw [h.nz_eq, e1, e2]⟩

theorem Base.raw {z : ZN} {m : Nat} {noise : ℝ} {N : Nat} {M : Option Nat} {s q : List ℝ} (h : z.Base m noise N M s q) :
    z.RawInv m N M (s.map .fin) (q.map .fin) := by
  refine ⟨h.data.m_eq, h.data.m_pos, h.data.m_le, h.data.series, h.data.s_eq, .of_ok h.data.m_pos h.sStats, ?_⟩
  have h1 := h.data.query
  have h2 := h.qStats
  cases M with
  | none => exact Or.inl ⟨rfl, h1.1, by rw [h1.2], h2⟩
  | some M =>
    obtain ⟨rb, a, b, c⟩ := h1
    obtain ⟨d, st, e, f⟩ := h2
    exact Or.inr ⟨M, rb, st, rfl, d, a, b, c, e, .of_ok h.data.m_pos f⟩

end ZN

/-! ### Facts about the specification -/

theorem znoise_le (m : Nat) (noise : ℝ) (s q : Nat → ℝ) (i j : Nat) : znoise m noise s q i j ≤ znoise m 0 s q i j := by
  unfold znoise
  have : 0 ≤ 2 * ((m : ℝ) + 1) * noise ^ 2 / max (std m s j) (std m q i) ^ 2 := by positivity
  split
  · exact le_rfl
  · simpa using this

theorem zdist_nonneg (m : Nat) (noise : ℝ) (s q : Nat → ℝ) (i j : Nat) : 0 ≤ zdist m noise s q i j := Real.sqrt_nonneg _

theorem zdist_le (m : Nat) (noise : ℝ) (s q : Nat → ℝ) (i j : Nat) : zdist m noise s q i j ≤ zdist m 0 s q i j := by
  have h := znoise_le m noise s q i j
  have h0 : (0 : ℝ) < 1 / 10 ^ 12 := by positivity
  unfold zdist
  apply Real.sqrt_le_sqrt
  split <;> split <;> linarith

theorem zdist_flat (m : Nat) (noise : ℝ) (s q : Nat → ℝ) (i j : Nat) (h1 : Flat m q i) (h2 : Flat m s j) : zdist m noise s q i j = 0 := by
  simp [zdist, znoise, zflat, h1, h2]

theorem zdist_one_flat (m : Nat) (hm : 0 < m) (s q : Nat → ℝ) (i j : Nat) (h : ¬ (Flat m q i ↔ Flat m s j)) : zdist m 0 s q i j = √m := by
  have h1 : ¬ (Flat m q i ∧ Flat m s j) := fun h' => h ⟨fun _ => h'.2, fun _ => h'.1⟩
  have h2 : Flat m q i ∨ Flat m s j := by
    by_contra h'
    rw [not_or] at h'
    exact h ⟨fun h3 => absurd h3 h'.1, fun h3 => absurd h3 h'.2⟩
  have h3 : ¬ ((m : ℝ) < 1 / 10 ^ 12) := by
    have : (1 : ℝ) ≤ m := by exact_mod_cast hm
    have h4 : (1 : ℝ) / 10 ^ 12 ≤ 1 := by norm_num
    linarith
  simp only [zdist, znoise, zflat, if_neg h1, if_pos h2]
  rw [show (m : ℝ) - 2 * (m + 1) * 0 ^ 2 / max (std m s j) (std m q i) ^ 2 = m by ring, if_neg h3]

theorem zdist_regular (m : Nat) (s q : Nat → ℝ) (i j : Nat) (h1 : ¬ Flat m q i) (h2 : ¬ Flat m s j) :
    zdist m 0 s q i j = √(if zsq m s q i j < 1 / 10 ^ 12 then 0 else zsq m s q i j) := by
  simp [zdist, znoise, zflat, h1, h2]

theorem zsq_symm (m : Nat) (s q : Nat → ℝ) (i j : Nat) : zsq m s q i j = zsq m q s j i :=
  Finset.sum_congr rfl fun k _ => by ring

theorem zdist_symm (m : Nat) (noise : ℝ) (s q : Nat → ℝ) (i j : Nat) : zdist m noise s q i j = zdist m noise q s j i := by
  have h : znoise m noise s q i j = znoise m noise q s j i := by
    unfold znoise zflat
    rw [zsq_symm, max_comm]
    by_cases h1 : Flat m q i <;> by_cases h2 : Flat m s j <;> simp [h1, h2]
  unfold zdist
  rw [h]

theorem zdist_self (m : Nat) (noise : ℝ) (s : Nat → ℝ) (i : Nat) : zdist m noise s s i i = 0 := by
  refine le_antisymm ((zdist_le m noise s s i i).trans ?_) (zdist_nonneg _ _ _ _ _ _)
  by_cases h : Flat m s i
  · rw [zdist_flat m 0 s s i i h h]
  · rw [zdist_regular m s s i i h h, show zsq m s s i i = 0 from Finset.sum_eq_zero fun k _ => by simp]
    simp

/-! ### C29, C30 -/

/-- The distance the documentation promises: z-normalised Euclidean distance (squared distances below 1e-12 count as 0), with
the conventions for flat subsequences. -/
def IsZDist (m : Nat) (s q : Nat → ℝ) (i j : Nat) (x : ℝ) : Prop :=
  (¬ Flat m q i → ¬ Flat m s j → 1 / 10 ^ 12 ≤ zsq m s q i j → x = √(zsq m s q i j)) ∧
  (¬ Flat m q i → ¬ Flat m s j → zsq m s q i j < 1 / 10 ^ 12 → x = 0) ∧
  (Flat m q i → ¬ Flat m s j → x = √m) ∧ (¬ Flat m q i → Flat m s j → x = √m) ∧ (Flat m q i → Flat m s j → x = 0)

theorem isZDist (m : Nat) (hm : 0 < m) (s q : Nat → ℝ) (i j : Nat) : IsZDist m s q i j (zdist m 0 s q i j) := by
  refine ⟨fun h1 h2 h3 => ?_, fun h1 h2 h3 => ?_, fun h1 h2 => ?_, fun h1 h2 => ?_, fun h1 h2 => zdist_flat m 0 s q i j h1 h2⟩
  · rw [zdist_regular m s q i j h1 h2, if_neg (not_lt.mpr h3)]
  · rw [zdist_regular m s q i j h1 h2, if_pos h3, Real.sqrt_zero]
  · exact zdist_one_flat m hm s q i j (by tauto)
  · exact zdist_one_flat m hm s q i j (by tauto)

/-- **C29** for diagonals: after any successful calls, without noise elimination, entry `k` of `calc_diagonal(d)` is the
z-normalised distance of the `k`-th pair of subsequences on that diagonal. -/
theorem C29_diagonal (mem : ZN.Mem) (hmem : mem.Ok) (m N : Nat) (M : Option Nat) (z0 z : ZN) (st0 : GSt ℝ) (hm : 0 < m)
    (h0 : ZN.Fresh mem m 0 z0 N M st0) (ops : List (GOp ℝ)) (hrun : ZN.run mem z0 ops = .ok z) (d : Int)
    (hd : (st0.run N M ops).Valid m M (.diag d)) :
    ∃ s q vs, s = (st0.run N M ops).s ∧ q = (st0.run N M ops).q ∧ ZN.calcDiagonal z d = .ok vs ∧ vs.length = diagEntries m q.length s.length d ∧
      ∀ k, k < diagEntries m q.length s.length d → ∃ x, vs[k]? = some (.fin x) ∧
        IsZDist m (seqOf s) (seqOf q) ((-d).toNat + k) (d.toNat + k) x := by
  have hb := ZN.run_base mem z0 z m 0 N M st0 ops (h0.base hmem hm).1 hrun
  refine ⟨_, _, _, rfl, rfl, z.calcDiagonal_ok m 0 N M _ d hb hd, by simp, fun k hk => ⟨_, ?_, isZDist m hm _ _ _ _⟩⟩
  rw [List.getElem?_map, List.getElem?_range hk]; rfl

/-- **C29** for single entries: after any successful calls, without noise elimination. The dot product may be passed in. -/
theorem C29_single (mem : ZN.Mem) (hmem : mem.Ok) (m N : Nat) (M : Option Nat) (z0 z : ZN) (st0 : GSt ℝ) (hm : 0 < m)
    (h0 : ZN.Fresh mem m 0 z0 N M st0) (ops : List (GOp ℝ)) (hrun : ZN.run mem z0 ops = .ok z) (s q : List ℝ) (hs : s = (st0.run N M ops).s)
    (hq : q = (st0.run N M ops).q) (r c : Nat) (hr : r + m ≤ q.length) (hc : c + m ≤ s.length) (dp : Option (Fl ℝ))
    (hdp : dp = none ∨ dp = some (.fin (∑ k ∈ Finset.range m, seqOf s (c + k) * seqOf q (r + k)))) :
    ∃ x, ZN.calcSingle z r c dp = .ok (.fin x) ∧ IsZDist m (seqOf s) (seqOf q) r c x := by
  subst hs hq
  have hb := ZN.run_base mem z0 z m 0 N M st0 ops (h0.base hmem hm).1 hrun
  exact ⟨_, z.calcSingle_ok m 0 N M _ _ r c hb hr hc dp hdp, isZDist m hm _ _ _ _⟩

/-- **C29** for columns: after any valid and `Safe` calls (in particular any calls on a batch generator,
`GSt.All.safe_of_no_append`), without noise elimination. -/
theorem C29_column (mem : ZN.Mem) (hmem : mem.Ok) (m N : Nat) (M : Option Nat) (z0 : ZN) (st0 : GSt ℝ) (hm : 0 < m)
    (h0 : ZN.Fresh mem m 0 z0 N M st0) (ops : List (GOp ℝ)) (c : Nat)
    (hok : st0.All N M (fun st op => st.Valid m M op ∧ st.Safe op) (ops ++ [.column c])) :
    ∃ z z' s q vs, s = (st0.run N M ops).s ∧ q = (st0.run N M ops).q ∧ ZN.run mem z0 ops = .ok z ∧
      ZN.calcColumn mem.fl z c = .ok (z', vs) ∧ vs.length = q.length - m + 1 ∧
      ∀ r, r + m ≤ q.length → ∃ x, vs[r]? = some (.fin x) ∧ IsZDist m (seqOf s) (seqOf q) r c x := by
  obtain ⟨ha, hb⟩ := GSt.All.split hok
  obtain ⟨z, h1, h2, h3⟩ := ZN.run_cache mem hmem z0 m 0 N M st0 ops (h0.base hmem hm).1 (h0.base hmem hm).2 ha
  obtain ⟨z', h4, -, -⟩ := z.calcColumn_ok mem hmem m 0 N M _ c h2 h3 hb.1.1 hb.1.2
  refine ⟨z, z', _, _, _, rfl, rfl, h1, h4, by simp, fun r hr => ⟨_, ?_, isZDist m hm _ _ _ _⟩⟩
  rw [List.getElem?_map, List.getElem?_range (by omega)]; rfl

/-- The position of the pair (row `r`, column `c`) on diagonal `c - r`. -/
theorem diag_cell (m nq ns r c : Nat) (hr : r + m ≤ nq) (hc : c + m ≤ ns) :
    min r c < diagEntries m nq ns ((c : Int) - r) ∧ (-((c : Int) - r)).toNat + min r c = r ∧ ((c : Int) - r).toNat + min r c = c := by
  unfold diagEntries
  omega

/-- **C30** (partial): for any noise level and any valid and `Safe` calls made before, `calc_column(c)` succeeds and its entry
`r`, the entry of pair (r, c) in `calc_diagonal(c - r)`, and `calc_single(r, c)` (with or without the dot product passed in)
are the same number. Missing: `Safe` cannot be dropped, see `C30_stale_column`. -/
theorem C30_paths_agree_partial (mem : ZN.Mem) (hmem : mem.Ok) (m N : Nat) (noise : ℝ) (M : Option Nat) (z0 : ZN) (st0 : GSt ℝ) (hm : 0 < m)
    (h0 : ZN.Fresh mem m noise z0 N M st0) (ops : List (GOp ℝ)) (c : Nat)
    (hok : st0.All N M (fun st op => st.Valid m M op ∧ st.Safe op) (ops ++ [.column c])) :
    ∃ z z' s q vs, s = (st0.run N M ops).s ∧ q = (st0.run N M ops).q ∧ ZN.run mem z0 ops = .ok z ∧
      ZN.calcColumn mem.fl z c = .ok (z', vs) ∧ vs.length = q.length - m + 1 ∧
      ∀ r : Nat, r + m ≤ q.length → ∃ x ds, vs[r]? = some (.fin x) ∧ ZN.calcDiagonal z ((c : Int) - r) = .ok ds ∧ ds[min r c]? = some (.fin x) ∧
        ZN.calcSingle z r c none = .ok (.fin x) ∧
        ZN.calcSingle z r c (some (.fin (∑ k ∈ Finset.range m, seqOf s (c + k) * seqOf q (r + k)))) = .ok (.fin x) := by
  obtain ⟨ha, hb⟩ := GSt.All.split hok
  obtain ⟨z, h1, h2, h3⟩ := ZN.run_cache mem hmem z0 m noise N M st0 ops (h0.base hmem hm).1 (h0.base hmem hm).2 ha
  obtain ⟨z', h4, -, -⟩ := z.calcColumn_ok mem hmem m noise N M _ c h2 h3 hb.1.1 hb.1.2
  obtain ⟨v1, v2⟩ := hb.1.1
  refine ⟨z, z', _, _, _, rfl, rfl, h1, h4, by simp, fun r hr => ⟨_, _, ?_, z.calcDiagonal_ok m noise N M _ _ h2 ?_, ?_,
    z.calcSingle_ok m noise N M _ _ r c h2 hr v1 none (Or.inl rfl), z.calcSingle_ok m noise N M _ _ r c h2 hr v1 _ (Or.inr rfl)⟩⟩
  · rw [List.getElem?_map, List.getElem?_range (by omega)]; rfl
  · exact ⟨by omega, by omega, by omega, by omega⟩
  · obtain ⟨d1, d2, d3⟩ := diag_cell m _ _ r c hr v1
    rw [List.getElem?_map, List.getElem?_range d1, Option.map_some, d2, d3]

/-- **C30** for diagonals and single entries, after any successful calls whatever. -/
theorem C30_diagonal_single (mem : ZN.Mem) (hmem : mem.Ok) (m N : Nat) (noise : ℝ) (M : Option Nat) (z0 z : ZN) (st0 : GSt ℝ) (hm : 0 < m)
    (h0 : ZN.Fresh mem m noise z0 N M st0) (ops : List (GOp ℝ)) (hrun : ZN.run mem z0 ops = .ok z) (r c : Nat)
    (hr : r + m ≤ (st0.run N M ops).q.length) (hc : c + m ≤ (st0.run N M ops).s.length) :
    ∃ x ds, ZN.calcDiagonal z ((c : Int) - r) = .ok ds ∧ ds[min r c]? = some (.fin x) ∧ ZN.calcSingle z r c none = .ok (.fin x) := by
  have hb := ZN.run_base mem z0 z m noise N M st0 ops (h0.base hmem hm).1 hrun
  refine ⟨_, _, z.calcDiagonal_ok m noise N M _ _ hb ⟨by omega, by omega, by omega, by omega⟩, ?_,
    z.calcSingle_ok m noise N M _ _ r c hb hr hc none (Or.inl rfl)⟩
  obtain ⟨d1, d2, d3⟩ := diag_cell m _ _ r c hr hc
  rw [List.getElem?_map, List.getElem?_range d1, Option.map_some, d2, d3]

/-- **C30** for columns of a batch generator (or any generator as long as nothing is appended): any order of requests. -/
theorem C30_batch_any_order (mem : ZN.Mem) (hmem : mem.Ok) (m N : Nat) (noise : ℝ) (M : Option Nat) (z0 : ZN) (st0 : GSt ℝ) (hm : 0 < m)
    (h0 : ZN.Fresh mem m noise z0 N M st0) (ops : List (GOp ℝ)) (c : Nat) (hops : ∀ op ∈ ops, (∃ c, op = .column c) ∨ ∃ d, op = .diag d)
    (hok : st0.All N M (fun st op => st.Valid m M op) (ops ++ [.column c])) :
    ∃ z z' vs, ZN.run mem z0 ops = .ok z ∧ ZN.calcColumn mem.fl z c = .ok (z', vs) ∧
      ∀ r : Nat, r + m ≤ (st0.run N M ops).q.length → ∃ x ds, vs[r]? = some (.fin x) ∧ ZN.calcDiagonal z ((c : Int) - r) = .ok ds ∧
        ds[min r c]? = some (.fin x) ∧ ZN.calcSingle z r c none = .ok (.fin x) := by
  have hl : st0.last = none := by cases h0 <;> rfl
  obtain ⟨z, z', s, q, vs, -, rfl, h1, h2, -, h3⟩ := C30_paths_agree_partial mem hmem m N noise M z0 st0 hm h0 ops c
    (GSt.All.safe_of_no_append _ _ (by intro t e he; rw [hl] at he; cases he) (by
      intro op ho
      rcases List.mem_append.mp ho with h | h
      · exact hops op h
      · exact Or.inl ⟨c, by simpa using h⟩) hok)
  exact ⟨z, z', vs, h1, h2, fun r hr => by
    obtain ⟨x, ds, a, b, c, d, -⟩ := h3 r hr
    exact ⟨x, ds, a, b, c, d⟩⟩

/-- The calls of the counterexample to C30. -/
def staleOps : List (GOp ℝ) := [.query [0, 1, 0], .series [0, 0, 1], .column 1, .series [0]]

theorem stale_stats : (mean 2 (seqOf [0, 0, 1, 0]) 1 = 1 / 2 ∧ std 2 (seqOf [0, 0, 1, 0]) 1 = 1 / 2) ∧
    mean 2 (seqOf [0, 1, 0]) 1 = 1 / 2 ∧ std 2 (seqOf [0, 1, 0]) 1 = 1 / 2 := by
  have hq : √(1 / 4 : ℝ) = 1 / 2 := by rw [show (1 / 4 : ℝ) = (1 / 2) ^ 2 by norm_num]; exact Real.sqrt_sq (by norm_num)
  have a : mean 2 (seqOf [0, 0, 1, 0]) 1 = 1 / 2 := by norm_num [mean, seqOf, Finset.sum_range_succ]
  have b : mean 2 (seqOf [0, 1, 0]) 1 = 1 / 2 := by norm_num [mean, seqOf, Finset.sum_range_succ]
  have c : var 2 (seqOf [0, 0, 1, 0]) 1 = 1 / 4 := by rw [var, a]; norm_num [seqOf, Finset.sum_range_succ]
  have d : var 2 (seqOf [0, 1, 0]) 1 = 1 / 4 := by rw [var, b]; norm_num [seqOf, Finset.sum_range_succ]
  exact ⟨⟨a, by rw [std, c, hq]⟩, b, by rw [std, d, hq]⟩

/-- **C30 fails** when a column is requested at or left of the previous one after an append that fills the series window
(znorm_euclidean.py:157 computes the number of dropped points from the window length *after* the push). Window of 4 points,
m = 2, query (0, 1, 0); 3 points (0, 0, 1), column 1, 1 more point 0. Nothing was dropped, yet the cached column 1 is now
taken for column 0, and a second request of column 1 reports distance 0 for the opposite subsequences (1, 0) and (0, 1);
`calc_single` gives √8. -/
theorem C30_stale_column (mem : ZN.Mem) (hmem : mem.Ok) :
    GSt.All 4 (some 3) (fun st op => st.Valid 2 (some 3) op) ⟨[], [], none⟩ (staleOps ++ [.column 1]) ∧
    ∃ z0 z z' vs, ZN.prepareStreaming mem 0 2 2 4 (some 3) = .ok z0 ∧ ZN.run mem z0 staleOps = .ok z ∧ ZN.calcColumn mem.fl z 1 = .ok (z', vs) ∧
      vs[1]? = some (.fin 0) ∧ ZN.calcSingle z 1 1 none = .ok (.fin (√8)) := by
  refine ⟨by simp [staleOps, GSt.All, GSt.Valid, GSt.step, lastN], ?_⟩
  obtain ⟨z0, h0, hb0, f1, f2⟩ := ZN.prepareStreaming_ok mem hmem 0 2 (by norm_num) le_rfl 2 (by norm_num) 4 (some 3) (by norm_num) (by simp)
  obtain ⟨z1, r1, hb1, hc1⟩ := ZN.run_cache mem hmem z0 2 0 4 (some 3) ⟨[], [], none⟩ [.query [0, 1, 0], .series [0, 0, 1], .column 1] hb0
    (z0.noCache 2 4 _ _ f1 f2) (by simp [GSt.All, GSt.Valid, GSt.Safe, GSt.step, lastN])
  have hst : GSt.run 4 (some 3) ⟨[], [], none⟩ [.query [0, 1, 0], .series [0, 0, 1], .column 1] =
      (⟨[0, 0, 1], [0, 1, 0], some (1, true)⟩ : GSt ℝ) := by simp [GSt.run, GSt.step, lastN]
  rw [hst] at hb1 hc1
  obtain ⟨p, i1, -, i3, i4, -, -, i7⟩ := hc1.idx
  have hp := i3 rfl
  subst hp
  obtain ⟨z2, a1, hb2, hc2, hcore⟩ := z1.appendSeries_ok 2 0 4 (some 3) _ [0] hb1
  obtain ⟨rb, hcore⟩ := hcore (by simp)
  have hst2 : (GSt.step 4 (some 3) ⟨[0, 0, 1], [0, 1, 0], some (1, true)⟩ (.series [0]) : GSt ℝ) =
      ⟨[0, 0, 1, 0], [0, 1, 0], some (1, false)⟩ := by simp [GSt.step, lastN]
  rw [hst2] at hb2
  have hc2 := hc2 hc1
  rw [hst2] at hc2
  obtain ⟨rq, hrq, -⟩ := hb1.data.query
  have hidx : z2.core.prevIdx = some ((0 : Nat) : Int) := by rw [hcore]; simp [ColCache.finishSeries, hrq, i1]
  have hprev : z2.core.prev = z1.core.prev := by rw [hcore]; simp [ColCache.finishSeries, hrq]
  have hi7 := i7 1 rfl
  simp only [List.length_cons, List.length_nil] at hi7 i4
  choose! pv hpv1 hpv2 using hi7
  obtain ⟨g', vs, c1, -, -, -, -, c2, -, c3⟩ := z2.core.column_cached (term := Fl.mul) (mem := mem.fl) 2 4 (some 3) _ _ _ 0 ZN.dots_spec hmem.1 (fun x y => rfl)
    hb2.data hc2 (by simp) (by simp) hidx (by rw [hprev, i4]; rfl) pv (by rw [hprev]; simpa using hpv1)
  obtain ⟨r, d1, -, d3⟩ := z2.calcColumn_dots mem.fl 2 0 4 (some 3) _ _ 1 hb2 (by simp) (by simp) g' vs c1 c2
  have hpv0 := hpv2 0 (by norm_num)
  obtain ⟨⟨m1, m2⟩, m3, m4⟩ := stale_stats
  refine ⟨z0, z2, _, r, h0, ?_, d1, ?_, ?_⟩
  · simp only [ZN.run, bind, Except.bind, staleOps] at r1 ⊢
    cases e1 : ZN.exec mem z0 (.query [0, 1, 0]) with
    | error e => rw [e1] at r1; cases r1
    | ok w1 =>
      rw [e1] at r1
      simp only at r1 ⊢
      cases e2 : ZN.exec mem w1 (.series [0, 0, 1]) with
      | error e => rw [e2] at r1; cases r1
      | ok w2 =>
        rw [e2] at r1
        simp only at r1 ⊢
        cases e3 : ZN.exec mem w2 (.column 1) with
        | error e => rw [e3] at r1; cases r1
        | ok w3 =>
          rw [e3] at r1
          cases r1
          simp only [ZN.exec, a1, ZN.ofCall]
  · rw [d3 1 _ (by simp) (c3 0 (by simp)), m1, m2, m3, m4, hpv0]
    have hfl : (1 / 2 : ℝ) > ZN.flat := by unfold ZN.flat; norm_num
    have hz : (Fl.fin (0 : ℝ)).ltF (.fin ZN.eps) = true := by
      have : (0 : ℝ) < ZN.eps := by unfold ZN.eps; positivity
      simp [Fl.ltF, this]
    norm_num [ZN.colEntry, hfl, pairSum, seqOf, Fl.div, hz]
    rw [Fl.sqrtF_fin _ _ le_rfl, Real.sqrt_zero]
  · have hsing := z2.calcSingle_ok 2 0 4 (some 3) _ _ 1 1 hb2 (by simp) (by simp) none (Or.inl rfl)
    rw [Nat.cast_one] at hsing
    rw [hsing]
    have hf1 : ¬ Flat 2 (seqOf [0, 1, 0]) 1 := by unfold Flat; rw [m4]; norm_num
    have hf2 : ¬ Flat 2 (seqOf [0, 0, 1, 0]) 1 := by unfold Flat; rw [m2]; norm_num
    rw [zdist_regular 2 _ _ 1 1 hf1 hf2]
    have : zsq 2 (seqOf [0, 0, 1, 0]) (seqOf [0, 1, 0]) 1 1 = 8 := by
      unfold zsq
      rw [m1, m2, m3, m4]
      norm_num [Finset.sum_range_succ, seqOf]
    rw [this]
    norm_num

/-! ### C31 -/

/-- The statistics buffers list exactly the means, deviations and flags of the subsequences of a window. -/
def StatsOf (st : ZStats) (m : Nat) (s : List (Fl ℝ)) : Prop :=
  if s.length < m then st.mu.items = [] ∧ st.std.items = [] ∧ st.nz.items = []
  else ∃ x : List ℝ, s = x.map .fin ∧ st.mu.items = (List.range (s.length - m + 1)).map (mean m (seqOf x)) ∧
    st.std.items = (List.range (s.length - m + 1)).map (std m (seqOf x)) ∧
    st.nz.items.length = s.length - m + 1 ∧ ∀ i, i + m ≤ s.length → (st.nz.items[i]? = some true ↔ ¬ Flat m (seqOf x) i)

theorem ZN.RawStats.statsOf {st : ZStats} {N m : Nat} {s : List (Fl ℝ)} (hm : 0 < m) (h : ZN.RawStats st N m s) : StatsOf st m s := by
  unfold StatsOf
  rcases h with ⟨h1, h2⟩ | ⟨h1, x, rfl, h2⟩
  · rw [if_pos h1]
    have e2 : windows m ([] : List ℝ) = [] := windows_eq_nil _ _ (by simpa using hm)
    exact ⟨by rw [h2.mu_eq, e2]; rfl, by rw [h2.std_eq, e2]; rfl, by rw [h2.nz_eq, e2]; rfl⟩
  · rw [if_neg (by omega)]
    rw [List.length_map] at h1 ⊢
    have hn : x.length - m + 1 = x.length + 1 - m := by omega
    refine ⟨x, rfl, ?_, ?_, by rw [h2.len.2.2, hn], fun i hi => ?_⟩
    · rw [h2.mu_eq, hn, map_windows x m npMean _ (fun i => npMean_window x m i)]
    · rw [h2.std_eq, hn, map_windows x m npStd _ (fun i => npStd_window x m i)]
    · rw [(h2.at i hi).2.2]
      unfold Flat ZN.flat
      simp

/-- **C31**: after any successful calls, with arbitrary data (NaN and infinities included), the cached means, deviations and
flags of series and query are exactly those of the subsequences in the current windows, one per subsequence (in particular a
window with at least one subsequence then holds only finite values). -/
theorem C31_statistics (mem : ZN.Mem) (hmem : mem.Ok) (m N : Nat) (noise : ℝ) (M : Option Nat) (z0 z : ZN) (st0 : GSt ℝ) (hm : 0 < m)
    (h0 : ZN.Fresh mem m noise z0 N M st0) (ops : List (GOp (Fl ℝ))) (hrun : ZN.runRaw mem z0 ops = .ok z) (st : GSt (Fl ℝ))
    (hst : st = GSt.run N M ⟨st0.s.map .fin, st0.q.map .fin, none⟩ ops) :
    z.core.s = st.s ∧ z.core.q = st.q ∧ StatsOf z.sStats m st.s ∧ StatsOf z.qs m st.q := by
  have h := ZN.runRaw_inv mem z0 z m N M ⟨st0.s.map .fin, st0.q.map .fin, none⟩ ops (h0.base hmem hm).1.raw hrun
  rw [← hst] at h
  rcases h.query with ⟨-, q1, q2, q3⟩ | ⟨M', rb, qst, -, -, q1, -, q3, q4, q5⟩
  · refine ⟨h.s_eq, ?_, h.sStats.statsOf hm, ?_⟩
    · rw [q2, ← h.s_eq, ColCache.q, q1]; rfl
    · rw [ZN.qs, q3, q2]; exact h.sStats.statsOf hm
  · refine ⟨h.s_eq, by rw [ColCache.q, q1]; exact q3, h.sStats.statsOf hm, ?_⟩
    rw [ZN.qs, q4]; exact q5.statsOf hm

/-! ### C32 -/

/-- **C32** (z-normalised): in a self-join, diagonal `-d` has the same values as diagonal `d`, and `calc_single` is symmetric,
after any history and for any noise level. -/
theorem C32_znorm_symmetric (mem : ZN.Mem) (hmem : mem.Ok) (m N : Nat) (noise : ℝ) (z0 z : ZN) (st0 : GSt ℝ) (hm : 0 < m)
    (h0 : ZN.Fresh mem m noise z0 N none st0) (ops : List (GOp ℝ)) (hrun : ZN.run mem z0 ops = .ok z) :
    (∀ d : Int, |d| + m ≤ (st0.run N none ops).s.length → ∃ vs, ZN.calcDiagonal z d = .ok vs ∧ ZN.calcDiagonal z (-d) = .ok vs) ∧
    ∀ r c : Nat, r + m ≤ (st0.run N none ops).s.length → c + m ≤ (st0.run N none ops).s.length →
      ∃ x, ZN.calcSingle z r c none = .ok (.fin x) ∧ ZN.calcSingle z c r none = .ok (.fin x) := by
  have hb := ZN.run_base mem z0 z m noise N none st0 ops (h0.base hmem hm).1 hrun
  have hq := hb.data.query.2
  refine ⟨fun d hd => ?_, fun r c hr hc => ?_⟩
  · have h1 := neg_le_abs d
    have h2 := le_abs_self d
    have h3 := abs_nonneg d
    refine ⟨_, z.calcDiagonal_ok m noise N none _ d hb ⟨by omega, by rw [hq]; omega, by omega, by rw [hq]; omega⟩, ?_⟩
    rw [z.calcDiagonal_ok m noise N none _ (-d) hb ⟨by omega, by rw [hq]; omega, by omega, by rw [hq]; omega⟩, hq, neg_neg]
    congr 1
    rw [show diagEntries m (st0.run N none ops).s.length (st0.run N none ops).s.length (-d) =
      diagEntries m (st0.run N none ops).s.length (st0.run N none ops).s.length d by unfold diagEntries; rw [neg_neg, min_comm]]
    apply List.map_congr_left
    intro k _
    rw [zdist_symm]
  · refine ⟨_, z.calcSingle_ok m noise N none _ _ r c hb (by rw [hq]; exact hr) hc none (Or.inl rfl), ?_⟩
    rw [z.calcSingle_ok m noise N none _ _ c r hb (by rw [hq]; exact hc) hr none (Or.inl rfl), hq, zdist_symm]

/-- **C32** (z-normalised): in a self-join the main diagonal is zero. -/
theorem C32_znorm_main_diagonal (mem : ZN.Mem) (hmem : mem.Ok) (m N : Nat) (noise : ℝ) (z0 z : ZN) (st0 : GSt ℝ) (hm : 0 < m)
    (h0 : ZN.Fresh mem m noise z0 N none st0) (ops : List (GOp ℝ)) (hrun : ZN.run mem z0 ops = .ok z) (hd : m ≤ (st0.run N none ops).s.length) :
    ZN.calcDiagonal z 0 = .ok (List.replicate ((st0.run N none ops).s.length - m + 1) (.fin 0)) := by
  have hb := ZN.run_base mem z0 z m noise N none st0 ops (h0.base hmem hm).1 hrun
  have hq := hb.data.query.2
  rw [z.calcDiagonal_ok m noise N none _ 0 hb ⟨by omega, by rw [hq]; omega, by omega, by rw [hq]; omega⟩, hq]
  congr 1
  rw [List.eq_replicate_iff]
  refine ⟨by simp [diagEntries]; omega, ?_⟩
  intro x hx
  obtain ⟨k, -, rfl⟩ := List.mem_map.mp hx
  have : (-(0 : Int)).toNat + k = (0 : Int).toNat + k := rfl
  rw [this, zdist_self]

/-! ### C33 -/

/-- **C33** for diagonals and single entries: a generator with noise elimination, compared to one without that received the
same calls: every entry is a number, at least 0 and at most the entry without noise elimination, and 0 for two flat
subsequences. -/
theorem C33_noise (mem : ZN.Mem) (hmem : mem.Ok) (m N : Nat) (noise : ℝ) (M : Option Nat) (z0 z z0' z' : ZN) (st0 : GSt ℝ) (hm : 0 < m)
    (h0 : ZN.Fresh mem m noise z0 N M st0) (h0' : ZN.Fresh mem m 0 z0' N M st0) (ops : List (GOp ℝ)) (hrun : ZN.run mem z0 ops = .ok z)
    (hrun' : ZN.run mem z0' ops = .ok z') (s q : List ℝ) (hs : s = (st0.run N M ops).s) (hq : q = (st0.run N M ops).q) (r c : Nat)
    (hr : r + m ≤ q.length) (hc : c + m ≤ s.length) :
    ∃ x y ds ds', ZN.calcDiagonal z ((c : Int) - r) = .ok ds ∧ ZN.calcDiagonal z' ((c : Int) - r) = .ok ds' ∧ ds[min r c]? = some (.fin x) ∧
      ds'[min r c]? = some (.fin y) ∧ ZN.calcSingle z r c none = .ok (.fin x) ∧ ZN.calcSingle z' r c none = .ok (.fin y) ∧
      0 ≤ x ∧ x ≤ y ∧ (noise = 0 → x = y) ∧ (Flat m (seqOf q) r → Flat m (seqOf s) c → x = 0) := by
  subst hs hq
  have hb := ZN.run_base mem z0 z m noise N M st0 ops (h0.base hmem hm).1 hrun
  have hb' := ZN.run_base mem z0' z' m 0 N M st0 ops (h0'.base hmem hm).1 hrun'
  have hv : (st0.run N M ops).Valid m M (.diag ((c : Int) - r)) := ⟨by omega, by omega, by omega, by omega⟩
  obtain ⟨d1, d2, d3⟩ := diag_cell m _ _ r c hr hc
  refine ⟨_, _, _, _, z.calcDiagonal_ok m noise N M _ _ hb hv, z'.calcDiagonal_ok m 0 N M _ _ hb' hv, ?_, ?_,
    z.calcSingle_ok m noise N M _ _ r c hb hr hc none (Or.inl rfl), z'.calcSingle_ok m 0 N M _ _ r c hb' hr hc none (Or.inl rfl),
    zdist_nonneg _ _ _ _ _ _, zdist_le _ _ _ _ _ _, fun h => by rw [h], fun h1 h2 => zdist_flat _ _ _ _ _ _ h1 h2⟩
  · rw [List.getElem?_map, List.getElem?_range d1, Option.map_some, d2, d3]
  · rw [List.getElem?_map, List.getElem?_range d1, Option.map_some, d2, d3]

/-- **C33** for columns, after valid and `Safe` calls. -/
theorem C33_noise_column (mem : ZN.Mem) (hmem : mem.Ok) (m N : Nat) (noise : ℝ) (M : Option Nat) (z0 z0' : ZN) (st0 : GSt ℝ) (hm : 0 < m)
    (h0 : ZN.Fresh mem m noise z0 N M st0) (h0' : ZN.Fresh mem m 0 z0' N M st0) (ops : List (GOp ℝ)) (c : Nat)
    (hok : st0.All N M (fun st op => st.Valid m M op ∧ st.Safe op) (ops ++ [.column c])) :
    ∃ z z' r r' s q, ZN.run mem z0 ops = .ok z ∧ ZN.run mem z0' ops = .ok z' ∧ ZN.calcColumn mem.fl z c = .ok r ∧ ZN.calcColumn mem.fl z' c = .ok r' ∧
      s = (st0.run N M ops).s ∧ q = (st0.run N M ops).q ∧
      ∀ i, i + m ≤ q.length → ∃ x y, r.2[i]? = some (.fin x) ∧ r'.2[i]? = some (.fin y) ∧
        0 ≤ x ∧ x ≤ y ∧ (noise = 0 → x = y) ∧ (Flat m (seqOf q) i → Flat m (seqOf s) c → x = 0) := by
  obtain ⟨ha, hb⟩ := GSt.All.split hok
  obtain ⟨z, h1, h2, h3⟩ := ZN.run_cache mem hmem z0 m noise N M st0 ops (h0.base hmem hm).1 (h0.base hmem hm).2 ha
  obtain ⟨w, h4, -, -⟩ := z.calcColumn_ok mem hmem m noise N M _ c h2 h3 hb.1.1 hb.1.2
  obtain ⟨z', h1', h2', h3'⟩ := ZN.run_cache mem hmem z0' m 0 N M st0 ops (h0'.base hmem hm).1 (h0'.base hmem hm).2 ha
  obtain ⟨w', h4', -, -⟩ := z'.calcColumn_ok mem hmem m 0 N M _ c h2' h3' hb.1.1 hb.1.2
  refine ⟨z, z', _, _, _, _, h1, h1', h4, h4', rfl, rfl, fun i hi => ⟨_, _, ?_, ?_, zdist_nonneg _ noise _ _ _ _, zdist_le _ noise _ _ _ _,
    fun h => by rw [h], fun h1 h2 => zdist_flat _ _ _ _ _ _ h1 h2⟩⟩
  · rw [List.getElem?_map, List.getElem?_range (by omega)]; rfl
  · rw [List.getElem?_map, List.getElem?_range (by omega)]; rfl

/-! ### C34 -/

theorem ZN.pushStats_err_of_nonfinite (st : ZStats) (m : Nat) (hm : 0 < m) (view : List (Fl ℝ)) (n : Nat) (hl : m ≤ view.length)
    (hx : ∃ x ∈ lastN (n + m - 1) view, x.isFinite = false) (hn : 0 < n) : ∃ e, ZN.pushStats st m view n = (st, some e) := by
  have hfrom : pyFrom view (-((n : Int) + (m : Int) - 1)) = lastN (n + m - 1) view := by
    rw [show -((n : Int) + (m : Int) - 1) = -((n + m - 1 : Nat) : Int) by omega, pyFrom_neg _ _ (by omega)]
  obtain ⟨e, he⟩ := slidingGuard_err (lastN (n + m - 1) view) m (Or.inr (Or.inr hx))
  unfold ZN.pushStats
  rw [if_pos (by exact_mod_cast hl), hfrom]
  simp only [slidingMeanStd, he, bind, Except.bind]
  exact ⟨e, rfl⟩

/-- **C34 fails**: in every state, appending a chunk that ends in a NaN (once there is at least one subsequence) raises, but
the chunk has already been written into the series window, while the statistics are the old ones. -/
theorem C34_rejected_append_changes_series (mem : ZN.Mem) (hmem : mem.Ok) (m N : Nat) (noise : ℝ) (M : Option Nat) (z0 z : ZN) (st0 : GSt ℝ)
    (hm : 0 < m) (h0 : ZN.Fresh mem m noise z0 N M st0) (ops : List (GOp ℝ)) (hrun : ZN.run mem z0 ops = .ok z) (v : List ℝ)
    (hl : m ≤ (st0.run N M ops).s.length + v.length + 1) :
    ∃ z' e, z.appendSeries (v.map .fin ++ [.nan]) = (z', some e) ∧ z'.core.s = lastN N ((st0.run N M ops).s.map .fin ++ (v.map .fin ++ [.nan])) ∧
      z'.core.s ≠ z.core.s ∧ z'.sStats = z.sStats ∧ z'.qStats = z.qStats := by
  have hb := ZN.run_base mem z0 z m noise N M st0 ops (h0.base hmem hm).1 hrun
  set st := st0.run N M ops
  obtain ⟨rb, h1, h2, h3, -⟩ := hb.data.series.push (v.map .fin ++ [.nan])
  have hs : z.core.series.items = st.s.map .fin := hb.data.s_eq
  rw [hs] at h3
  have hmN := hb.data.m_le
  have hnan : (Fl.nan : Fl ℝ) ∈ lastN N (st.s.map .fin ++ (v.map .fin ++ [.nan])) := by
    rw [← List.append_assoc, lastN_append]
    refine List.mem_append_right _ ?_
    rw [lastN_of_le _ _ (by simp; omega)]
    simp
  obtain ⟨e, he⟩ := ZN.pushStats_err_of_nonfinite z.sStats m hm (lastN N (st.s.map .fin ++ (v.map .fin ++ [.nan]))) (v.map Fl.fin ++ [Fl.nan]).length
    (by rw [lastN_length]; simp; omega) (by
      refine ⟨.nan, ?_, rfl⟩
      rw [← List.append_assoc, lastN_append, lastN_append]
      refine List.mem_append_right _ ?_
      rw [lastN_of_le N _ (by simp; omega), lastN_of_le _ _ (by simp; omega)]
      simp) (by simp)
  refine ⟨{ z with core := { z.core with series := rb, backlog := z.core.backlog + (v.map Fl.fin ++ [Fl.nan]).length } }, e, ?_, h3, ?_, rfl, rfl⟩
  · unfold ZN.appendSeries
    rw [if_neg (by simp)]
    have hp : z.core.pushSeries (v.map .fin ++ [.nan]) = .ok ({ z.core with series := rb, backlog := z.core.backlog + (v.map Fl.fin ++ [Fl.nan]).length },
        z.core.series.items.length + (v.map Fl.fin ++ [Fl.nan]).length - N,
        (((v.map Fl.fin ++ [Fl.nan]).length : Nat) : Int) - ((rb.vmax : Int) - rb.items.length)) := by
      unfold ColCache.pushSeries
      rw [h1]; rfl
    rw [hp]
    simp only [ColCache.s, h3, hb.data.m_eq, he]
  · intro h
    have h4 : ({ z.core with series := rb, backlog := z.core.backlog + (v.map Fl.fin ++ [Fl.nan]).length } : ColCache ℝ).s =
      lastN N (st.s.map .fin ++ (v.map .fin ++ [.nan])) := h3
    rw [← h4, h, hb.data.s_eq] at hnan
    obtain ⟨x, -, hx⟩ := List.mem_map.mp hnan
    cases hx

/-- **C34** (partial): what does hold: whatever the call, the statistics are unchanged if it raises; a rejected `append_series`
leaves the query and the cached first row alone, a rejected `append_query` leaves the series alone; and in a self-join `append_query` raises without changing
anything. Missing: the data window itself, see `C34_rejected_append_changes_series`. -/
theorem C34_rejected_append_partial (mem : ZN.Mem) (hmem : mem.Ok) (m N : Nat) (noise : ℝ) (M : Option Nat) (z0 z : ZN) (st0 : GSt ℝ)
    (hm : 0 < m) (h0 : ZN.Fresh mem m noise z0 N M st0) (ops : List (GOp ℝ)) (hrun : ZN.run mem z0 ops = .ok z) (v : List (Fl ℝ)) :
    (∀ z' e, z.appendSeries v = (z', some e) → z'.sStats = z.sStats ∧ z'.qStats = z.qStats ∧ z'.core.query = z.core.query ∧ z'.core.firstRow = z.core.firstRow) ∧
    (∀ z' e, z.appendQuery v = (z', some e) → z'.sStats = z.sStats ∧ z'.qs = z.qs ∧ z'.core.series = z.core.series) ∧
    (M = none → z.appendQuery v = (z, some .runtimeError)) := by
  have hb := ZN.run_base mem z0 z m noise N M st0 ops (h0.base hmem hm).1 hrun
  have key : ∀ (st : ZStats) (k : Nat) (view : List (Fl ℝ)) (n : Nat) (x : List ℝ) st' e, ZN.StatsOk st k m x →
      ZN.pushStats st z.core.m view n = (st', some e) → st' = st := by
    intro st k view n x st' e hst h
    unfold ZN.pushStats at h
    split at h
    · cases hsl : slidingMeanStd (pyFrom view (-((n : Int) + z.core.m - 1))) z.core.m with
      | error e' => rw [hsl] at h; cases h; rfl
      | ok r =>
        obtain ⟨mu, sd⟩ := r
        rw [hsl] at h
        obtain ⟨b1, p1, -⟩ := hst.mu.push mu
        obtain ⟨b2, p2, -⟩ := hst.std.push sd
        obtain ⟨b3, p3, -⟩ := hst.nz.push (sd.map fun x => decide (x > ZN.flat))
        simp only [p1, p2, p3] at h
        cases h
    · cases h
  refine ⟨?_, ?_, ?_⟩
  · intro z' e h
    unfold ZN.appendSeries at h
    split at h
    · cases h
    · obtain ⟨rb, h1, h2, h3, -⟩ := hb.data.series.push v
      simp only [ColCache.pushSeries, h1, bind, Except.bind, pure, Except.pure] at h
      split at h
      · rename_i st e' hp
        have := key _ _ _ _ _ _ _ hb.sStats hp
        cases h
        exact ⟨this, rfl, rfl, rfl⟩
      · cases h
  · intro z' e h
    cases M with
    | none =>
      have := hb.data.query.1
      simp only [ZN.appendQuery, this] at h
      cases h; exact ⟨rfl, rfl, rfl⟩
    | some M =>
      obtain ⟨rq, q1, q2, q3⟩ := hb.data.query
      obtain ⟨-, qst, q5, q6⟩ := hb.qStats
      simp only [ZN.appendQuery, q1] at h
      split at h
      · cases h
      · obtain ⟨rb, h1, -⟩ := q2.push v
        have hqs : z.qs = qst := by rw [ZN.qs, q5]; rfl
        simp only [ColCache.pushQuery, h1, bind, Except.bind, pure, Except.pure, hqs] at h
        rw [Prod.mk.injEq] at h
        obtain ⟨h3, h4⟩ := h
        cases hp : ZN.pushStats qst z.core.m ({ z.core with query := some rb, firstRow := if rq.items.length + v.length - M ≠ 0 then none else z.core.firstRow, prevIdx := none } : ColCache ℝ).q v.length with
        | mk a b =>
          rw [hp] at h3 h4
          simp only at h3 h4
          subst h4
          have := key _ _ _ _ _ _ _ q6 hp
          subst h3
          exact ⟨rfl, by rw [hqs, ← this]; rfl, rfl⟩
  · rintro rfl
    have := hb.data.query.1
    simp only [ZN.appendQuery, this]

/-! ### Concrete cases -/

/-- Memory full of zeros. -/
def ZN.zeroMem : ZN.Mem := ⟨fun n => List.replicate n (.fin 0), fun n => List.replicate n 0, fun n => List.replicate n false⟩

theorem ZN.zeroMem_ok : ZN.zeroMem.Ok := ⟨by simp [zeroMem], by simp [zeroMem], by simp [zeroMem]⟩

/-- A streaming history with cached and uncached columns, wrap-arounds of both windows and diagonals. -/
def exOpsR : List (GOp ℝ) :=
  [.query [0, 1], .series [5, 0, 1], .column 0, .column 1, .diag 1, .series [7], .column 2, .series [8, 2], .column 1, .query [3, 4], .column 0]

theorem exOpsR_ok : GSt.All 4 (some 3) (fun st op => st.Valid 2 (some 3) op ∧ st.Safe op) ⟨[], [], none⟩ (exOpsR ++ [.column 1]) := by
  simp [exOpsR, GSt.All, GSt.Valid, GSt.Safe, GSt.step, lastN]

theorem exFresh (noise : ℝ) : ∃ z, ZN.Fresh ZN.zeroMem 2 noise z 4 (some 3) ⟨[], [], none⟩ := by
  obtain ⟨z, h, -⟩ := ZN.prepareStreaming_ok ZN.zeroMem ZN.zeroMem_ok noise 2 (by norm_num) le_rfl 2 (by norm_num) 4 (some 3) (by norm_num) (by simp)
  exact ⟨z, .streaming 2 4 (some 3) z (by norm_num) le_rfl (by norm_num) (by simp) h⟩

/-- the hypotheses of the C29-C33 theorems are met by this history ... -/
example : ∃ z0 z, ZN.Fresh ZN.zeroMem 2 (1 / 2) z0 4 (some 3) ⟨[], [], none⟩ ∧ ZN.run ZN.zeroMem z0 exOpsR = .ok z ∧
    (GSt.run 4 (some 3) ⟨[], [], none⟩ exOpsR).s = [1, 7, 8, 2] ∧ (GSt.run 4 (some 3) ⟨[], [], none⟩ exOpsR).q = [1, 3, 4] := by
  obtain ⟨z0, h0⟩ := exFresh (1 / 2)
  obtain ⟨z, h1, -⟩ := ZN.run_cache _ ZN.zeroMem_ok z0 2 (1 / 2) 4 (some 3) _ exOpsR (h0.base ZN.zeroMem_ok (by norm_num)).1
    (h0.base ZN.zeroMem_ok (by norm_num)).2 (GSt.All.split exOpsR_ok).1
  exact ⟨z0, z, h0, h1, by simp [exOpsR, GSt.run, GSt.step, lastN], by simp [exOpsR, GSt.run, GSt.step, lastN]⟩

/-- ... also by batch self-joins -/
example : ∃ z, ZN.Fresh ZN.zeroMem 2 (1 / 2) z 3 none ⟨[1, 4, 2], [1, 4, 2], none⟩ := by
  obtain ⟨z, h, -⟩ := ZN.prepare_ok ZN.zeroMem ZN.zeroMem_ok (1 / 2) 2 (by norm_num) [1, 4, 2] none (by simp) (by simp)
  exact ⟨z, .batch [1, 4, 2] none z (by simp) (by simp) h⟩

/-- the three cases of `IsZDist` occur: opposite subsequences, one flat, both flat -/
example : zdist 2 0 (seqOf [0, 0, 1, 0]) (seqOf [0, 1, 0]) 1 1 = √8 ∧ zdist 2 0 (seqOf [0, 0, 1, 0]) (seqOf [0, 1, 0]) 1 0 = √2 ∧
    zdist 2 0 (seqOf [0, 0, 1, 0]) (seqOf [3, 3]) 0 0 = 0 := by
  obtain ⟨⟨m1, m2⟩, m3, m4⟩ := stale_stats
  have hf1 : ¬ Flat 2 (seqOf [0, 1, 0]) 1 := by unfold Flat; rw [m4]; norm_num
  have hf2 : ¬ Flat 2 (seqOf [0, 0, 1, 0]) 1 := by unfold Flat; rw [m2]; norm_num
  have hf3 : Flat 2 (seqOf [0, 0, 1, 0]) 0 := by
    have a : mean 2 (seqOf [0, 0, 1, 0]) 0 = 0 := by norm_num [mean, seqOf, Finset.sum_range_succ]
    have b : var 2 (seqOf [0, 0, 1, 0]) 0 = 0 := by rw [var, a]; norm_num [seqOf, Finset.sum_range_succ]
    unfold Flat; rw [std, b]; norm_num
  have hf4 : Flat 2 (seqOf [3, 3]) 0 := by
    have a : mean 2 (seqOf [3, 3]) 0 = 3 := by norm_num [mean, seqOf, Finset.sum_range_succ]
    have b : var 2 (seqOf [3, 3]) 0 = 0 := by rw [var, a]; norm_num [seqOf, Finset.sum_range_succ]
    unfold Flat; rw [std, b]; norm_num
  refine ⟨?_, ?_, zdist_flat 2 0 _ _ 0 0 hf4 hf3⟩
  · rw [zdist_regular 2 _ _ 1 1 hf1 hf2]
    have : zsq 2 (seqOf [0, 0, 1, 0]) (seqOf [0, 1, 0]) 1 1 = 8 := by
      unfold zsq
      rw [m1, m2, m3, m4]
      norm_num [Finset.sum_range_succ, seqOf]
    rw [this]; norm_num
  · have := zdist_one_flat 2 (by norm_num) (seqOf [0, 0, 1, 0]) (seqOf [0, 1, 0]) 1 0 (by tauto)
    simpa using this

/-- C31 with non-finite data: a NaN seen while no subsequence exists yet (m = 2, window of 3), gone again after later appends -/
example : GSt.run 2 none ⟨[], [], none⟩ [.series [.nan], .series [.fin 1, .fin 2]] = (⟨[.fin 1, .fin 2], [.fin 1, .fin 2], none⟩ : GSt (Fl ℝ)) := by
  simp [GSt.run, GSt.step, lastN]

example : ∃ z0 z, ZN.Fresh ZN.zeroMem 2 0 z0 2 none ⟨[], [], none⟩ ∧
    ZN.runRaw ZN.zeroMem z0 [.series [.nan], .series [.fin 1, .fin 2]] = .ok z := by
  obtain ⟨z0, h, hb, -⟩ := ZN.prepareStreaming_ok ZN.zeroMem ZN.zeroMem_ok 0 2 (by norm_num) le_rfl 2 (by norm_num) 2 none (by norm_num) (by simp)
  have hf : ZN.Fresh ZN.zeroMem 2 0 z0 2 none ⟨[], [], none⟩ := .streaming 2 2 none z0 (by norm_num) le_rfl (by norm_num) (by simp) h
  obtain ⟨rb, p1, p2, p3, -⟩ := hb.data.series.push [.nan]
  have hit : z0.core.series.items = [] := hb.data.s_eq
  rw [hit] at p3
  have hq := hb.data.query.1
  obtain ⟨rb2, p4, p5, p6, -⟩ := p2.push [.fin 1, .fin 2]
  have h6 : rb2.items = ([1, 2] : List ℝ).map .fin := by rw [p6, p3]; simp [lastN]
  obtain ⟨st', s1, -⟩ := ZN.pushStats_ok z0.sStats 2 2 [] [1, 2] (by norm_num) le_rfl (by simp) hb.sStats
  have h7 : lastN 2 ([] ++ [1, 2] : List ℝ) = [1, 2] := by simp [lastN]
  rw [h7] at s1
  suffices h : ∃ z, ZN.runRaw ZN.zeroMem z0 [.series [.nan], .series [.fin 1, .fin 2]] = .ok z from h.elim fun z h => ⟨z0, z, hf, h⟩
  have hps : ZN.pushStats z0.sStats z0.core.m rb.items (0 + 1) = (z0.sStats, none) := by
    unfold ZN.pushStats
    rw [if_neg (by rw [p3, hb.data.m_eq]; simp [lastN])]
  have hps2 : ZN.pushStats z0.sStats z0.core.m rb2.items (0 + 1 + 1) = (st', none) := by
    rw [h6, hb.data.m_eq]; exact s1
  simp only [ZN.runRaw, ZN.execRaw, ZN.appendSeries, ColCache.pushSeries, p1, bind, Except.bind, pure, Except.pure, ColCache.s, hps,
    ZN.ofCall, ColCache.finishSeries, hq, p4, hps2, List.length_cons, List.length_nil, Nat.add_eq_zero_iff, one_ne_zero, and_false, if_false]
  exact ⟨_, rfl⟩

/-- A generator after a streaming history, for the examples below. -/
theorem exFresh_run (noise : ℝ) : ∃ z0 z, ZN.Fresh ZN.zeroMem 2 noise z0 4 (some 3) ⟨[], [], none⟩ ∧ ZN.run ZN.zeroMem z0 exOpsR = .ok z := by
  obtain ⟨z0, h0⟩ := exFresh noise
  obtain ⟨z, h1, -⟩ := ZN.run_cache _ ZN.zeroMem_ok z0 2 noise 4 (some 3) _ exOpsR (h0.base ZN.zeroMem_ok (by norm_num)).1
    (h0.base ZN.zeroMem_ok (by norm_num)).2 (GSt.All.split exOpsR_ok).1
  exact ⟨z0, z, h0, h1⟩

/-- The series has the four points 1, 7, 8, 2 then, the query 1, 3, 4. -/
theorem exOpsR_points : (GSt.run 4 (some 3) ⟨[], [], none⟩ exOpsR).s = [1, 7, 8, 2] ∧ (GSt.run 4 (some 3) ⟨[], [], none⟩ exOpsR).q = [1, 3, 4] :=
  ⟨by simp [exOpsR, GSt.run, GSt.step, lastN], by simp [exOpsR, GSt.run, GSt.step, lastN]⟩

section
/- The generators of `exFresh_run`. -/
variable (z0 z z0' z' : ZN) (h0 : ZN.Fresh ZN.zeroMem 2 0 z0 4 (some 3) ⟨[], [], none⟩) (h1 : ZN.run ZN.zeroMem z0 exOpsR = .ok z)
  (h0' : ZN.Fresh ZN.zeroMem 2 (1 / 2) z0' 4 (some 3) ⟨[], [], none⟩) (h1' : ZN.run ZN.zeroMem z0' exOpsR = .ok z')

example := C29_column ZN.zeroMem ZN.zeroMem_ok 2 4 (some 3) _ _ (by norm_num) h0 exOpsR 1 exOpsR_ok

example := C30_paths_agree_partial ZN.zeroMem ZN.zeroMem_ok 2 4 (1 / 2) (some 3) _ _ (by norm_num) h0' exOpsR 1 exOpsR_ok

example := C33_noise_column ZN.zeroMem ZN.zeroMem_ok 2 4 (1 / 2) (some 3) _ _ _ (by norm_num) h0' h0 exOpsR 1 exOpsR_ok

example := C29_diagonal ZN.zeroMem ZN.zeroMem_ok 2 4 (some 3) z0 z _ (by norm_num) h0 exOpsR h1 (-1) (by simp [exOpsR, GSt.run, GSt.step, lastN, GSt.Valid])

example := C29_single ZN.zeroMem ZN.zeroMem_ok 2 4 (some 3) z0 z _ (by norm_num) h0 exOpsR h1 _ _ exOpsR_points.1.symm exOpsR_points.2.symm 1 2 (by simp) (by simp) none (.inl rfl)

example := C30_diagonal_single ZN.zeroMem ZN.zeroMem_ok 2 4 (1 / 2) (some 3) z0' z' _ (by norm_num) h0' exOpsR h1' 1 2 (by rw [exOpsR_points.2]; simp) (by rw [exOpsR_points.1]; simp)

example := C33_noise ZN.zeroMem ZN.zeroMem_ok 2 4 (1 / 2) (some 3) z0' z' z0 z _ (by norm_num) h0' h0 exOpsR h1' h1 _ _ exOpsR_points.1.symm exOpsR_points.2.symm 1 2 (by simp) (by simp)

example := C34_rejected_append_changes_series ZN.zeroMem ZN.zeroMem_ok 2 4 (1 / 2) (some 3) z0' z' _ (by norm_num) h0' exOpsR h1' [3, 1] (by simp)

example := C34_rejected_append_partial ZN.zeroMem ZN.zeroMem_ok 2 4 (1 / 2) (some 3) z0' z' _ (by norm_num) h0' exOpsR h1' [.fin 3, .nan]
end

/-- `C31_statistics` after a column has been calculated. -/
example (z0 z : ZN) (h0 : ZN.Fresh ZN.zeroMem 2 (1 / 2) z0 4 (some 3) ⟨[], [], none⟩)
    (h1 : ZN.runRaw ZN.zeroMem z0 [.query [.fin 1, .fin 3], .series [.fin 1, .fin 7, .fin 8], .column 1] = .ok z) :=
  C31_statistics ZN.zeroMem ZN.zeroMem_ok 2 4 (1 / 2) (some 3) z0 z _ (by norm_num) h0 _ h1 _ rfl

section
/- A generator of a batch self-join, as in the example above. -/
variable (z : ZN) (h : ZN.prepare ZN.zeroMem (1 / 2) 2 ([1, 4, 2].map .fin) none = .ok z)

example := C30_batch_any_order ZN.zeroMem ZN.zeroMem_ok 2 3 (1 / 2) none z _ (by norm_num) (.batch [1, 4, 2] none z (by simp) (by simp) h) [.column 1, .diag 1] 0 (by simp)
  (by simp [GSt.All, GSt.Valid, GSt.step])

example := C32_znorm_symmetric ZN.zeroMem ZN.zeroMem_ok 2 3 (1 / 2) z z _ (by norm_num) (.batch [1, 4, 2] none z (by simp) (by simp) h) [] rfl

example := C32_znorm_main_diagonal ZN.zeroMem ZN.zeroMem_ok 2 3 (1 / 2) z z _ (by norm_num) (.batch [1, 4, 2] none z (by simp) (by simp) h) [] rfl (by simp [GSt.run])
end

end Verif
