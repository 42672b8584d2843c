import Verif.Model.Euclidean
import Verif.Lemmas.ColumnCache
import Mathlib.Algebra.Order.BigOperators.Group.Finset
import Mathlib.Tactic.IntervalCases

/-!
# C27, C28, C32: the Euclidean generator
-/

namespace Verif
open Spec

namespace Eucl
variable {K : Type} [Field K] [LinearOrder K]

/-- One call on finite data (the outputs are discarded). -/
def exec (mem : Nat → List (Fl K)) (sq : K → K) (g : ColCache K) : GOp K → Except PyErr (ColCache K)
  | .series v => appendSeries g (v.map .fin)
  | .query v => appendQuery g (v.map .fin)
  | .column c => (calcColumn mem sq g c).map Prod.fst
  | .diag d => (calcDiagonal sq g d).map fun _ => g

/-- A sequence of calls; stops at the first one that raises. -/
def run (mem : Nat → List (Fl K)) (sq : K → K) (g : ColCache K) : List (GOp K) → Except PyErr (ColCache K)
  | [] => .ok g
  | op :: ops => do run mem sq (← exec mem sq g op) ops

/-- A newly created generator: its window lengths and contents. -/
inductive Fresh (mem : Nat → List (Fl K)) (m : Nat) : ColCache K → Nat → Option Nat → GSt K → Prop
  | streaming (scale : ℚ) (N : Nat) (M : Option Nat) (h1 : 1 ≤ scale) (h2 : scale ≤ 2) (hm : m ≤ N) (hM : M ≠ some 0) :
      Fresh mem m (prepareStreaming mem scale m N M) N M ⟨[], [], none⟩
  | batch (s : List K) (q : Option (List K)) (g : ColCache K) (hm : m ≤ s.length) (hq : q ≠ some [])
      (h : prepare mem m (s.map .fin) (q.map (·.map .fin)) = .ok g) :
      Fresh mem m g s.length (q.map (·.length)) ⟨s, q.getD s, none⟩

theorem init_data_good_one {α : Type} (data : List α) (hn : data ≠ []) (dt : Bool) (junk : List α)
    (hj : junk.length = RB.capacity 1 data.length) :
    ∃ rb, RB.init (some ([], data)) none dt junk = .ok rb ∧ rb.Good data.length ∧ rb.items = data := by
  have hg := RB.mkEmpty_good_scale 1 le_rfl (by norm_num) [] data.length junk (List.length_pos_iff.mpr hn) hj
  obtain ⟨rb, hp, hg', hit, hl⟩ := hg.push data
  refine ⟨rb, ?_, hg', ?_⟩
  · have hl : (RB.mkEmpty [] data.length junk).lead = [] := rfl
    simp [RB.init, RB.pushArr, hp, hl, bind, Except.bind, pure, Except.pure]
  · rw [hit, RB.mkEmpty_items, List.nil_append, lastN_of_le _ _ le_rfl]

/-- `prepare` succeeds. -/
theorem prepare_ok (mem : Nat → List (Fl K)) (hmem : ∀ n, (mem n).length = n) (m : Nat) (hm0 : 0 < m) (s : List K)
    (q : Option (List K)) (hm : m ≤ s.length) (hq : q ≠ some []) :
    ∃ g, prepare mem m (s.map .fin) (q.map (·.map .fin)) = .ok g ∧ g.Data m s.length (q.map (·.length)) s (q.getD s) ∧
      g.firstRow = none ∧ g.prevIdx = none := by
  obtain ⟨rs, h1, h2, h3⟩ := init_data_good_one (s.map (Fl.fin (K := K))) (by intro h; simp at h; subst h; simp at hm; omega) true
    (mem (RB.capacity 1 (s.map (Fl.fin (K := K))).length)) (hmem _)
  rw [List.length_map] at h2
  unfold prepare
  cases q with
  | none =>
    simp only [h1, bind, Except.bind, pure, Except.pure, Option.map_none]
    exact ⟨_, rfl, ⟨rfl, hm0, hm, h2, h3, rfl, rfl⟩, rfl, rfl⟩
  | some q =>
    obtain ⟨rq, q1, q2, q3⟩ := init_data_good_one (q.map (Fl.fin (K := K))) (by intro h; simp at h; subst h; exact hq rfl) true
      (mem (RB.capacity 1 (q.map (Fl.fin (K := K))).length)) (hmem _)
    rw [List.length_map] at q2
    simp only [h1, q1, bind, Except.bind, pure, Except.pure, Option.map_some]
    exact ⟨_, rfl, ⟨rfl, hm0, hm, h2, h3, rq, rfl, q2, q3⟩, rfl, rfl⟩

theorem Fresh.data {mem : Nat → List (Fl K)} (hmem : ∀ n, (mem n).length = n) {m N : Nat} {M : Option Nat} {g : ColCache K} {st : GSt K}
    (hm0 : 0 < m) (h : Fresh mem m g N M st) : g.Data m N M st.s st.q ∧ g.firstRow = none ∧ g.prevIdx = none ∧ st.last = none := by
  cases h with
  | streaming scale N M h1 h2 hm hM =>
    refine ⟨⟨rfl, hm0, hm, RB.mkEmpty_good_scale scale h1 h2 [] N _ (by omega) (hmem _), RB.mkEmpty_items _ _ _, ?_⟩, rfl, rfl, rfl⟩
    cases M with
    | none => exact ⟨rfl, rfl⟩
    | some M =>
      refine ⟨_, rfl, RB.mkEmpty_good_scale scale h1 h2 [] M _ (Nat.pos_of_ne_zero fun h => hM (by rw [h])) (hmem _), RB.mkEmpty_items _ _ _⟩
  | batch s q g hm hq h =>
    obtain ⟨g', a, b, c, d⟩ := prepare_ok mem hmem m hm0 s q hm hq
    rw [a] at h; cases h
    exact ⟨b, c, d, rfl⟩

/-- Calls that succeed keep the two windows. -/
theorem exec_data (mem : Nat → List (Fl K)) (sq : K → K) (g g' : ColCache K) (m N : Nat) (M : Option Nat) (st : GSt K) (op : GOp K)
    (hd : g.Data m N M st.s st.q) (h : exec mem sq g op = .ok g') :
    g'.Data m N M (st.step N M op).s (st.step N M op).q := by
  cases op with
  | series v =>
    simp only [exec, appendSeries, List.length_map] at h
    by_cases hv : v.length = 0
    · rw [if_pos hv] at h; cases h; simpa [GSt.step, hv] using hd
    · rw [if_neg hv] at h
      obtain ⟨rb, h1, h2, h3⟩ := g.pushSeries_data m N M st.s st.q v hd
      rw [h1] at h
      simp only [bind, Except.bind, pure, Except.pure] at h
      cases h
      have := g.finishSeries_data m N M st.s st.q v hd rb (g.backlog + v.length) (st.s.length + v.length - N)
        ((v.length : Int) - (N - min N (st.s.length + v.length) : Nat)) h2 h3
      cases M <;> simpa [GSt.step, hv] using this
  | query v =>
    have hq := hd.query
    cases M with
    | none => rw [exec, appendQuery, hq.1] at h; cases h
    | some M =>
      obtain ⟨rq, h1, -⟩ := hq
      simp only [exec, appendQuery, h1, List.length_map] at h
      by_cases hv : v.length = 0
      · rw [if_pos hv] at h; cases h; simpa [GSt.step, hv] using hd
      · rw [if_neg hv] at h
        obtain ⟨rq', g2, a, b, c, -, -⟩ := g.pushQuery_ok (F := fun a _ => a) (C := id) (P := Eq) m N M st v hd hv
        rw [h1] at a; cases a
        rw [b] at h; cases h
        simpa [GSt.step, hv] using c
  | column c =>
    simp only [exec, calcColumn, bind, Except.bind, pure, Except.pure] at h
    cases hcol : g.column mem sqDist term c with
    | error e => rw [hcol] at h; cases h
    | ok r => rw [hcol] at h; cases h; exact hd.frame (g.column_frame r.1 c r.2 hcol)
  | diag d =>
    simp only [exec] at h
    cases hcol : calcDiagonal sq g d with
    | error e => rw [hcol] at h; cases h
    | ok r => rw [hcol] at h; cases h; exact hd

theorem run_data (mem : Nat → List (Fl K)) (sq : K → K) (g g' : ColCache K) (m N : Nat) (M : Option Nat) (st : GSt K) (ops : List (GOp K))
    (hd : g.Data m N M st.s st.q) (h : run mem sq g ops = .ok g') : g'.Data m N M (st.run N M ops).s (st.run N M ops).q := by
  induction ops generalizing g st with
  | nil => cases h; exact hd
  | cons op ops ih =>
    simp only [run, bind, Except.bind] at h
    cases he : exec mem sq g op with
    | error e => rw [he] at h; cases h
    | ok g1 =>
      rw [he] at h
      exact ih g1 (st.step N M op) (exec_data mem sq g g1 m N M st op hd he) h

variable [IsStrictOrderedRing K]

theorem sqd_nonneg (m : Nat) (s q : Nat → K) (i j : Nat) : 0 ≤ sqd m s q i j := Finset.sum_nonneg fun _ _ => sq_nonneg _

theorem calcDiagonal_ok (sq : K → K) (g : ColCache K) (m N : Nat) (M : Option Nat) (st : GSt K) (d : Int)
    (hd : g.Data m N M st.s st.q) (hv : st.Valid m M (.diag d)) :
    calcDiagonal sq g d = .ok ((List.range (diagEntries m st.q.length st.s.length d)).map fun k =>
      .fin (sq (sqd m (seqOf st.s) (seqOf st.q) ((-d).toNat + k) (d.toNat + k)))) := by
  obtain ⟨v1, v2, v3, v4⟩ := hv
  have hm0 := hd.m_pos
  obtain ⟨n, hn1, hn2, hn3⟩ := diagLength_valid m _ _ d v1 v2 v3 v4
  set l := List.zipWith (fun a b : K => a - b) ((st.q.drop (-d).toNat).take n) ((st.s.drop d.toNat).take n) with hl
  have hzip : l.map (· ^ 2) = List.zipWith (fun a b : K => (a - b) ^ 2) ((st.q.drop (-d).toNat).take n) ((st.s.drop d.toNat).take n) := by
    rw [hl, List.map_zipWith]
  have hl2 : (l.map (· ^ 2)).length = n := by rw [List.length_map, hl]; simp; omega
  have hsq : (l.map Fl.fin).map Fl.square = (l.map (· ^ 2)).map Fl.fin := by
    rw [List.map_map, List.map_map]; exact List.map_congr_left fun x _ => Fl.square_fin x
  have hcd := cumsum_diff (l.map (· ^ 2)) m (by rw [hl2]; exact hn3)
  rw [hl2] at hcd
  have hql : g.q.length = st.q.length := by rw [hd.q_eq, List.length_map]
  have hsl : g.s.length = st.s.length := by rw [hd.s_eq, List.length_map]
  unfold calcDiagonal
  simp only [hql, hsl, hn1, bind, Except.bind, pure, Except.pure,
    g.diagPoints_ok Fl.sub (fun a b => a - b) Fl.sub_fin m N M _ _ hd d n hn2, ← hl, hsq, cumsum0_ok _ n hl2,
    List.length_map, List.length_range, hd.m_eq]
  rw [show (((n + 1 : Nat) : Int) - (m : Int)) = ((n + 1 - m : Nat) : Int) by omega, pyTo_nat, hcd]
  simp only [List.map_map]
  congr 1
  rw [show diagEntries m st.q.length st.s.length d = n + 1 - m by rw [diagEntries, hn2]]
  apply List.map_congr_left
  intro k hk
  have hk := List.mem_range.mp hk
  have hsum : (((l.map (· ^ 2)).drop k).take m).sum = sqd m (seqOf st.s) (seqOf st.q) ((-d).toNat + k) (d.toNat + k) := by
    rw [hzip, diag_sums _ st.q st.s _ _ n m k (by omega) (by omega) (by omega), sqd]
    exact Finset.sum_congr rfl fun x _ => by ring
  rw [Function.comp_apply, hsum, Fl.sqrtF_fin _ _ (sqd_nonneg _ _ _ _ _)]

/-! ### Columns -/

/-- Squared distances below `EPSILON` are set to 0. -/
def clamp (d : K) : K := if d < eps then 0 else d

omit [LinearOrder K] [IsStrictOrderedRing K] in
theorem sq_expand (w x : List K) (h : w.length = x.length) :
    (List.zipWith (· * ·) w w).sum - 2 * (List.zipWith (· * ·) w x).sum + (List.zipWith (· * ·) x x).sum =
      pairSum (fun a b => (a - b) ^ 2) w x := by
  unfold pairSum
  induction w generalizing x with
  | nil => cases x with
    | nil => simp
    | cons y x => simp at h
  | cons a w ih => cases x with
    | nil => simp at h
    | cons y x =>
      simp only [List.zipWith_cons_cons, List.sum_cons]
      rw [← ih x (by simpa using h)]
      ring

omit [IsStrictOrderedRing K] in
theorem sqDist_spec : FullSpec (fun a b : K => (a - b) ^ 2) clamp sqDist := by
  intro x w h1 h2
  unfold sqDist
  rw [List.length_map, slidingWindows_ok _ _ h1 (by rw [List.length_map]; exact h2), windows_map]
  simp only [bind, Except.bind, pure, Except.pure, List.map_map]
  congr 1
  apply List.map_congr_left
  intro win hwin
  have hwl := mem_windows_length hwin
  simp only [Function.comp_apply, zipWith_fin Fl.mul (· * ·) Fl.mul_fin, Fl.sum_fin, Fl.mul_fin, Fl.sub_fin, Fl.add_fin,
    sq_expand win w hwl]
  unfold clamp Fl.ltF
  simp only [Fl.fin_lt_fin, ne_eq, reduceCtorEq, not_false_eq_true, decide_true, Bool.and_true, decide_eq_true_eq]
  split <;> rfl

/-- No two subsequences of the windows are different but closer than `EPSILON` (squared). -/
def NoTiny (m : Nat) (s q : List K) : Prop :=
  ∀ i j, i + m ≤ q.length → j + m ≤ s.length → sqd m (seqOf s) (seqOf q) i j = 0 ∨ eps ≤ sqd m (seqOf s) (seqOf q) i j

omit [LinearOrder K] [IsStrictOrderedRing K] in
theorem pair_sqd (m : Nat) (s q : List K) (i j : Nat) (hj : j + m ≤ s.length) (hi : i + m ≤ q.length) :
    pairSum (fun a b : K => (a - b) ^ 2) ((s.drop j).take m) ((q.drop i).take m) = sqd m (seqOf s) (seqOf q) i j :=
  pairSum_windows _ m s q i j hj hi

/-- The requirement on the relation `P` between cached and true squared distances for the windows at a column request. -/
def Starts (P : K → K → Prop) (m : Nat) (s q : List K) : Prop :=
  ∀ i j, i + m ≤ q.length → j + m ≤ s.length → P (clamp (sqd m (seqOf s) (seqOf q) i j)) (sqd m (seqOf s) (seqOf q) i j)

/-- Calls covered: valid, safe, and for columns the windows meet `Starts P`. -/
def Ok (P : K → K → Prop) (m : Nat) (M : Option Nat) (st : GSt K) (op : GOp K) : Prop :=
  st.Valid m M op ∧ st.Safe op ∧ ∀ c, op = .column c → Starts P m st.s st.q

variable {P : K → K → Prop}

omit [IsStrictOrderedRing K] in
theorem calcColumn_ok (mem : Nat → List (Fl K)) (hmem : ∀ n, (mem n).length = n) (sq : K → K) (hP : ∀ v d a b, P v d → P (v - a + b) (d - a + b))
    (g : ColCache K) (m N : Nat) (M : Option Nat) (st : GSt K) (c : Nat) (hd : g.Data m N M st.s st.q)
    (hc : g.Cache (fun a b => (a - b) ^ 2) clamp P m N st.s st.q st.last) (hok : Ok P m M st (.column c)) :
    ∃ g' vs, calcColumn mem sq g c = .ok (g', vs) ∧ g'.Data m N M st.s st.q ∧
      g'.Cache (fun a b => (a - b) ^ 2) clamp P m N st.s st.q (some ((c : Int), true)) ∧ vs.length = st.q.length + 1 - m ∧
      ∀ i, i + m ≤ st.q.length → ∃ v, vs[i]? = some (Fl.sqrtF sq (.fin v)) ∧ P v (sqd m (seqOf st.s) (seqOf st.q) i c) := by
  obtain ⟨⟨v1, v2⟩, hsafe, hst⟩ := hok
  obtain ⟨g', vs, h1, h2, h3, -, h4, h5⟩ := g.column_ok (term := term) (mem := mem) m N M st.s st.q st.last c sqDist_spec hmem
    (fun x y => by rw [term, Fl.sub_fin, Fl.square_fin]) (fun a b => by ring) hP hd hc v1 v2 hsafe
    (fun i j hi hj => by rw [pair_sqd m _ _ i j hj hi]; exact hst c rfl i j hi hj)
  refine ⟨g', vs.map (Fl.sqrtF sq), ?_, h2, h3, by rw [List.length_map, h4], ?_⟩
  · unfold calcColumn; rw [h1]; rfl
  · intro i hi
    obtain ⟨v, a, b⟩ := h5 i hi
    rw [pair_sqd m _ _ i c v1 hi] at b
    exact ⟨v, by rw [List.getElem?_map, a]; rfl, b⟩

/-- A covered call succeeds and keeps the invariant. -/
theorem exec_cache (mem : Nat → List (Fl K)) (hmem : ∀ n, (mem n).length = n) (sq : K → K) (hP : ∀ v d a b, P v d → P (v - a + b) (d - a + b))
    (g : ColCache K) (m N : Nat) (M : Option Nat) (st : GSt K) (op : GOp K) (hd : g.Data m N M st.s st.q)
    (hc : g.Cache (fun a b => (a - b) ^ 2) clamp P m N st.s st.q st.last) (hok : Ok P m M st op) :
    ∃ g', exec mem sq g op = .ok g' ∧ g'.Data m N M (st.step N M op).s (st.step N M op).q ∧
      g'.Cache (fun a b => (a - b) ^ 2) clamp P m N (st.step N M op).s (st.step N M op).q (st.step N M op).last := by
  have key : ∀ g', exec mem sq g op = .ok g' → g'.Data m N M (st.step N M op).s (st.step N M op).q :=
    fun g' h => exec_data mem sq g g' m N M st op hd h
  suffices h : ∃ g', exec mem sq g op = .ok g' ∧
      g'.Cache (fun a b => (a - b) ^ 2) clamp P m N (st.step N M op).s (st.step N M op).q (st.step N M op).last by
    obtain ⟨g', h1, h2⟩ := h
    exact ⟨g', h1, key g' h1, h2⟩
  cases op with
  | series v =>
    by_cases hv : v.length = 0
    · refine ⟨g, by simp [exec, appendSeries, hv], by simpa [GSt.step, hv] using hc⟩
    · obtain ⟨rb, h1, -, -⟩ := g.pushSeries_data m N M st.s st.q v hd
      refine ⟨_, ?_, g.finishSeries_cache m N M st v hd hc hv rb⟩
      simp only [exec, appendSeries, List.length_map, if_neg hv, h1, bind, Except.bind, pure, Except.pure]
  | query v =>
    cases M with
    | none => exact absurd rfl hok.1
    | some M =>
      obtain ⟨rq, h1, -⟩ := hd.query
      by_cases hv : v.length = 0
      · refine ⟨g, by simp [exec, appendQuery, h1, hv], by simpa [GSt.step, hv] using hc⟩
      · obtain ⟨rq', g2, a, b, -, -, e⟩ := g.pushQuery_ok (F := fun a b : K => (a - b) ^ 2) (C := clamp) (P := P) m N M st v hd hv
        rw [h1] at a; cases a
        refine ⟨g2, by simp [exec, appendQuery, h1, hv, b], ?_⟩
        simpa [GSt.step, hv] using e hc
  | column c =>
    obtain ⟨g', vs, h1, -, h3, -⟩ := calcColumn_ok mem hmem sq hP g m N M st c hd hc hok
    exact ⟨g', by simp [exec, h1, Except.map], h3⟩
  | diag d =>
    refine ⟨g, ?_, hc⟩
    rw [exec, calcDiagonal_ok sq g m N M st d hd hok.1]; rfl

theorem run_cache (mem : Nat → List (Fl K)) (hmem : ∀ n, (mem n).length = n) (sq : K → K) (hP : ∀ v d a b, P v d → P (v - a + b) (d - a + b))
    (g : ColCache K) (m N : Nat) (M : Option Nat) (st : GSt K) (ops : List (GOp K)) (hd : g.Data m N M st.s st.q)
    (hc : g.Cache (fun a b => (a - b) ^ 2) clamp P m N st.s st.q st.last) (hok : st.All N M (Ok P m M) ops) :
    ∃ g', run mem sq g ops = .ok g' ∧ g'.Data m N M (st.run N M ops).s (st.run N M ops).q ∧
      g'.Cache (fun a b => (a - b) ^ 2) clamp P m N (st.run N M ops).s (st.run N M ops).q (st.run N M ops).last := by
  induction ops generalizing g st with
  | nil => exact ⟨g, rfl, hd, hc⟩
  | cons op ops ih =>
    obtain ⟨g1, h1, h2, h3⟩ := exec_cache mem hmem sq hP g m N M st op hd hc hok.1
    obtain ⟨g2, h4, h5⟩ := ih g1 (st.step N M op) h2 h3 hok.2
    exact ⟨g2, by simp only [run, h1, bind, Except.bind]; exact h4, h5⟩

omit [IsStrictOrderedRing K] in
theorem Fresh.cache {mem : Nat → List (Fl K)} (hmem : ∀ n, (mem n).length = n) {m N : Nat} {M : Option Nat} {g : ColCache K} {st : GSt K}
    (hm0 : 0 < m) (h : Fresh mem m g N M st) : g.Cache (fun a b => (a - b) ^ 2) clamp P m N st.s st.q st.last := by
  obtain ⟨-, h1, h2, h3⟩ := h.data hmem hm0
  rw [h3]
  exact ⟨fun fr hfr => (by rw [h1] at hfr; cases hfr), h2⟩

theorem column_after (mem : Nat → List (Fl K)) (hmem : ∀ n, (mem n).length = n) (sq : K → K) (hP : ∀ v d a b, P v d → P (v - a + b) (d - a + b))
    (m N : Nat) (M : Option Nat) (g0 : ColCache K) (st0 : GSt K) (hm : 0 < m) (h0 : Fresh mem m g0 N M st0) (ops : List (GOp K)) (c : Nat)
    (hok : st0.All N M (Ok P m M) ops) (hlast : Ok P m M (st0.run N M ops) (.column c)) :
    ∃ g g' vs, run mem sq g0 ops = .ok g ∧ calcColumn mem sq g c = .ok (g', vs) ∧ vs.length = (st0.run N M ops).q.length + 1 - m ∧
      ∀ i, i + m ≤ (st0.run N M ops).q.length → ∃ v, vs[i]? = some (Fl.sqrtF sq (.fin v)) ∧
        P v (sqd m (seqOf (st0.run N M ops).s) (seqOf (st0.run N M ops).q) i c) := by
  obtain ⟨g, h1, h2, h3⟩ := run_cache mem hmem sq hP g0 m N M st0 ops (h0.data hmem hm).1 (h0.cache hmem hm) hok
  obtain ⟨g', vs, h4, -, -, h5, h6⟩ := calcColumn_ok mem hmem sq hP g m N M _ c h2 h3 hlast
  exact ⟨g, g', vs, h1, h4, h5, h6⟩

theorem GSt.All.mono {K : Type} {N : Nat} {M : Option Nat} {p p' : GSt K → GOp K → Prop} (h : ∀ st op, p st op → p' st op) (st : GSt K)
    (ops : List (GOp K)) (ha : st.All N M p ops) : st.All N M p' ops := by
  induction ops generalizing st with
  | nil => trivial
  | cons op ops ih => exact ⟨h _ _ ha.1, ih _ ha.2⟩

end Eucl

section
variable {K : Type} [Field K] [LinearOrder K] [IsStrictOrderedRing K]

/-- **C27**: whatever calls (appends, column and diagonal requests) a batch or streaming Euclidean generator has answered,
`calc_diagonal(d)` returns the square roots of the squared Euclidean distances of the pairs of subsequences on diagonal `d`
of the current windows. -/
theorem C27_diagonal (mem : Nat → List (Fl K)) (hmem : ∀ n, (mem n).length = n) (sq : K → K) (m N : Nat) (M : Option Nat)
    (g0 g : ColCache K) (st0 : GSt K) (hm : 0 < m) (h0 : Eucl.Fresh mem m g0 N M st0) (ops : List (GOp K))
    (hrun : Eucl.run mem sq g0 ops = .ok g) (d : Int) (hd : (st0.run N M ops).Valid m M (.diag d)) :
    ∃ s q : List K, s = (st0.run N M ops).s ∧ q = (st0.run N M ops).q ∧
      Eucl.calcDiagonal sq g d = .ok ((List.range (diagEntries m q.length s.length d)).map fun k =>
        .fin (sq (sqd m (seqOf s) (seqOf q) ((-d).toNat + k) (d.toNat + k)))) :=
  ⟨_, _, rfl, rfl, Eucl.calcDiagonal_ok sq g m N M _ d (Eucl.run_data mem sq g0 g m N M st0 ops (h0.data hmem hm).1 hrun) hd⟩

theorem GSt.All.split {K : Type} {N : Nat} {M : Option Nat} {p : GSt K → GOp K → Prop} {st : GSt K} {ops : List (GOp K)} {ops' : List (GOp K)}
    (h : st.All N M p (ops ++ ops')) : st.All N M p ops ∧ (st.run N M ops).All N M p ops' := by
  induction ops generalizing st with
  | nil => exact ⟨trivial, h⟩
  | cons op ops ih => exact ⟨⟨h.1, (ih h.2).1⟩, (ih h.2).2⟩

/-- **C28** (partial): whatever data was appended and whatever columns and diagonals were calculated before (the calls being
valid and `Safe`), `calc_column(c)` succeeds, returns one value per query subsequence, and each is the square root of a number
at most 1e-15 below the squared Euclidean distance of the pair in the current windows and not above it; in particular a pair at
squared distance at least 1e-15 gives a number. Missing: below 1e-15 the value can be NaN instead of 0
(`C28_tiny_distance_gives_nan`); unsafe calls can return wrong distances (`C28_wrong_column_after_append`). -/
theorem C28_column_partial (mem : Nat → List (Fl K)) (hmem : ∀ n, (mem n).length = n) (sq : K → K) (m N : Nat) (M : Option Nat)
    (g0 : ColCache K) (st0 : GSt K) (hm : 0 < m) (h0 : Eucl.Fresh mem m g0 N M st0) (ops : List (GOp K)) (c : Nat)
    (hok : st0.All N M (fun st op => st.Valid m M op ∧ st.Safe op) (ops ++ [.column c])) :
    ∃ g g' vs s q, s = (st0.run N M ops).s ∧ q = (st0.run N M ops).q ∧
      Eucl.run mem sq g0 ops = .ok g ∧ Eucl.calcColumn mem sq g c = .ok (g', vs) ∧ vs.length = q.length - m + 1 ∧
      ∀ i, i + m ≤ q.length → ∃ v, vs[i]? = some (if v < 0 then .nan else .fin (sq v)) ∧
        v ≤ sqd m (seqOf s) (seqOf q) i c ∧ sqd m (seqOf s) (seqOf q) i c - v < 1 / 10 ^ 15 := by
  have hpos : (0 : K) < 1 / 10 ^ 15 := by positivity
  have hstart : ∀ s q : List K, Eucl.Starts (fun v d : K => v ≤ d ∧ d - v < 1 / 10 ^ 15) m s q := by
    intro s q i j _ _
    have := Eucl.sqd_nonneg m (seqOf s) (seqOf q) i j
    unfold Eucl.clamp Eucl.eps
    split
    · rename_i h; exact ⟨this, by rw [sub_zero]; exact h⟩
    · exact ⟨le_rfl, by rw [sub_self]; exact hpos⟩
  obtain ⟨ha, hb⟩ := GSt.All.split hok
  obtain ⟨g, g', vs, h1, h2, h3, h4⟩ := Eucl.column_after (P := fun v d : K => v ≤ d ∧ d - v < 1 / 10 ^ 15) mem hmem sq
    (fun v d a b h => ⟨by linarith [h.1], by linarith [h.2]⟩) m N M g0 st0 hm h0 ops c
    (Eucl.GSt.All.mono (fun st op h => ⟨h.1, h.2, fun _ _ => hstart _ _⟩) st0 ops ha) ⟨hb.1.1, hb.1.2, fun _ _ => hstart _ _⟩
  refine ⟨g, g', vs, _, _, rfl, rfl, h1, h2, by rw [h3]; have := hb.1.1.2; omega, ?_⟩
  intro i hi
  obtain ⟨v, h5, h6⟩ := h4 i hi
  exact ⟨v, by rw [h5, Fl.sqrtF], h6⟩

/-- **C28** (partial): if moreover no two different subsequences of the windows present at a column request are closer than
1e-15 (squared), the values are exactly the Euclidean distances. -/
theorem C28_column_exact_partial (mem : Nat → List (Fl K)) (hmem : ∀ n, (mem n).length = n) (sq : K → K) (m N : Nat) (M : Option Nat)
    (g0 : ColCache K) (st0 : GSt K) (hm : 0 < m) (h0 : Eucl.Fresh mem m g0 N M st0) (ops : List (GOp K)) (c : Nat)
    (hok : st0.All N M (fun st op => st.Valid m M op ∧ st.Safe op ∧ ∀ c, op = .column c → Eucl.NoTiny m st.s st.q) (ops ++ [.column c])) :
    ∃ g g' s q, s = (st0.run N M ops).s ∧ q = (st0.run N M ops).q ∧ Eucl.run mem sq g0 ops = .ok g ∧
      Eucl.calcColumn mem sq g c = .ok (g', (List.range (q.length - m + 1)).map fun i => .fin (sq (sqd m (seqOf s) (seqOf q) i c))) := by
  have hpos : (0 : K) < Eucl.eps := by unfold Eucl.eps; positivity
  have hstart : ∀ s q : List K, Eucl.NoTiny m s q → Eucl.Starts (fun v d : K => v = d) m s q := by
    intro s q h i j hi hj
    unfold Eucl.clamp
    rcases h i j hi hj with h | h
    · rw [h, if_pos hpos]
    · rw [if_neg (not_lt.mpr h)]
  obtain ⟨ha, hb⟩ := GSt.All.split hok
  obtain ⟨g, g', vs, h1, h2, h3, h4⟩ := Eucl.column_after (P := fun v d : K => v = d) mem hmem sq
    (fun v d a b h => by rw [h]) m N M g0 st0 hm h0 ops c
    (Eucl.GSt.All.mono (fun st op h => ⟨h.1, h.2.1, fun c hc => hstart _ _ (h.2.2 c hc)⟩) st0 ops ha)
    ⟨hb.1.1, hb.1.2.1, fun c hc => hstart _ _ (hb.1.2.2 c hc)⟩
  refine ⟨g, g', _, _, rfl, rfl, h1, ?_⟩
  rw [h2]
  congr 2
  have hle := hb.1.1.2
  apply List.ext_getElem?
  intro i
  by_cases hi : i + m ≤ (st0.run N M ops).q.length
  · obtain ⟨v, h5, h6⟩ := h4 i hi
    rw [h5, h6, Fl.sqrtF_fin _ _ (Eucl.sqd_nonneg _ _ _ _ _), List.getElem?_map, List.getElem?_range (by omega)]; rfl
  · rw [List.getElem?_eq_none (by omega), List.getElem?_eq_none (by simp; omega)]

/-- Without appends every valid sequence of calls is safe. -/
theorem GSt.All.safe_of_no_append {K : Type} {m N : Nat} {M : Option Nat} (ops : List (GOp K)) (st : GSt K)
    (hl : ∀ t e, st.last = some (t, e) → e = true) (hops : ∀ op ∈ ops, (∃ c, op = .column c) ∨ ∃ d, op = .diag d)
    (h : st.All N M (fun st op => st.Valid m M op) ops) : st.All N M (fun st op => st.Valid m M op ∧ st.Safe op) ops := by
  induction ops generalizing st with
  | nil => trivial
  | cons op ops ih =>
    have hop := hops op (by simp)
    refine ⟨⟨h.1, ?_⟩, ih _ ?_ (fun o ho => hops o (by simp [ho])) h.2⟩
    · rcases hop with ⟨c, rfl⟩ | ⟨d, rfl⟩
      · exact fun t e he => Or.inl (hl t e he)
      · trivial
    · rcases hop with ⟨c, rfl⟩ | ⟨d, rfl⟩
      · intro t e he; cases he; rfl
      · exact hl

/-- **C28** for batch use (partial only in the treatment of squared distances below 1e-15): without appends, columns can be
requested in any order, with repetitions, interleaved with diagonals. -/
theorem C28_batch_any_order_partial (mem : Nat → List (Fl K)) (hmem : ∀ n, (mem n).length = n) (sq : K → K) (m N : Nat) (M : Option Nat)
    (g0 : ColCache K) (st0 : GSt K) (hm : 0 < m) (h0 : Eucl.Fresh mem m g0 N M st0) (ops : List (GOp K)) (c : Nat)
    (hops : ∀ op ∈ ops, (∃ c, op = .column c) ∨ ∃ d, op = .diag d)
    (hok : st0.All N M (fun st op => st.Valid m M op) (ops ++ [.column c])) :
    ∃ g g' vs s q, s = (st0.run N M ops).s ∧ q = (st0.run N M ops).q ∧
      Eucl.run mem sq g0 ops = .ok g ∧ Eucl.calcColumn mem sq g c = .ok (g', vs) ∧ vs.length = q.length - m + 1 ∧
      ∀ i, i + m ≤ q.length → ∃ v, vs[i]? = some (if v < 0 then .nan else .fin (sq v)) ∧
        v ≤ sqd m (seqOf s) (seqOf q) i c ∧ sqd m (seqOf s) (seqOf q) i c - v < 1 / 10 ^ 15 := by
  refine C28_column_partial mem hmem sq m N M g0 st0 hm h0 ops c (GSt.All.safe_of_no_append _ _ ?_ ?_ hok)
  · intro t e he; rw [(h0.data hmem hm).2.2.2] at he; cases he
  · intro op ho
    rcases List.mem_append.mp ho with h | h
    · exact hops op h
    · exact Or.inl ⟨c, by simpa using h⟩

/-- **C28**: a column that is not the successor of the one calculated before is exact, squared distances below 1e-15 being
reported as 0. -/
theorem C28_uncached_column (mem : Nat → List (Fl K)) (hmem : ∀ n, (mem n).length = n) (sq : K → K) (m N : Nat) (M : Option Nat)
    (g0 : ColCache K) (st0 : GSt K) (hm : 0 < m) (h0 : Eucl.Fresh mem m g0 N M st0) (ops : List (GOp K)) (c : Nat)
    (hok : st0.All N M (fun st op => st.Valid m M op ∧ st.Safe op) (ops ++ [.column c]))
    (hfull : c = 0 ∨ ∀ t e, (st0.run N M ops).last = some (t, e) → e = true ∧ t ≠ (c : Int) - 1) :
    ∃ g g' s q, s = (st0.run N M ops).s ∧ q = (st0.run N M ops).q ∧ Eucl.run mem sq g0 ops = .ok g ∧
      Eucl.calcColumn mem sq g c = .ok (g', (List.range (q.length - m + 1)).map fun i =>
        .fin (sq (if sqd m (seqOf s) (seqOf q) i c < 1 / 10 ^ 15 then 0 else sqd m (seqOf s) (seqOf q) i c))) := by
  obtain ⟨ha, hb⟩ := GSt.All.split hok
  obtain ⟨g, h1, hd, hc⟩ := Eucl.run_cache (P := fun _ _ : K => True) mem hmem sq (fun _ _ _ _ _ => trivial) g0 m N M st0 ops
    (h0.data hmem hm).1 (h0.cache hmem hm) (Eucl.GSt.All.mono (fun st op h => ⟨h.1, h.2, fun _ _ _ _ _ _ => trivial⟩) st0 ops ha)
  set st := st0.run N M ops
  obtain ⟨v1, v2⟩ := hb.1.1
  have hcond : g.prevIdx ≠ some ((c : Int) - 1) ∨ (c : Int) = 0 := by
    rcases hfull with h | h
    · right; exact_mod_cast h
    · left
      have := hc.idx
      cases hl : st.last with
      | none => rw [hl] at this; simp only at this; rw [this]; simp
      | some te =>
        obtain ⟨t, e⟩ := te
        rw [hl] at this
        obtain ⟨p, i1, -, i3, -⟩ := this
        obtain ⟨h2, h3⟩ := h t e hl
        rw [i1, i3 h2]
        intro h4; exact h3 (Option.some.inj h4)
  have hw : pySlice g.s c (c + g.m) = ((st.s.drop c).take m).map .fin := by
    rw [hd.m_eq, hd.s_eq, pySlice_window, ← List.map_drop, ← List.map_take]
  have hwl : ((st.s.drop c).take m).length = m := by rw [List.length_take, List.length_drop]; omega
  have hfu := Eucl.sqDist_spec st.q ((st.s.drop c).take m) (by rw [hwl]; exact hm) (by omega)
  rw [hwl] at hfu
  have hcol : ∃ g', g.column mem Eucl.sqDist Eucl.term c =
      .ok (g', (windows m st.q).map fun win => .fin (Eucl.clamp (pairSum (fun a b => (a - b) ^ 2) win ((st.s.drop c).take m)))) := by
    unfold ColCache.column
    rw [if_pos hcond, hw, hd.q_eq, hfu]
    exact ⟨_, rfl⟩
  obtain ⟨g', hcol⟩ := hcol
  refine ⟨g, g', st.s, st.q, rfl, rfl, h1, ?_⟩
  unfold Eucl.calcColumn
  rw [hcol]
  simp only [bind, Except.bind, pure, Except.pure]
  congr 2
  rw [windows, List.map_map, List.map_map, show st.q.length + 1 - m = st.q.length - m + 1 by omega]
  apply List.map_congr_left
  intro i hi
  have hi := List.mem_range.mp hi
  simp only [Function.comp_apply]
  rw [pairSum_comm _ (fun a b => by ring), Eucl.pair_sqd m _ _ i c v1 (by omega), Fl.sqrtF_fin]
  · rfl
  · unfold Eucl.clamp
    split
    · exact le_rfl
    · exact Eucl.sqd_nonneg _ _ _ _ _

/-! ### Where the code departs from C28 -/

/-- Memory full of zeros. -/
def zeroMem (n : Nat) : List (Fl ℚ) := List.replicate n (.fin 0)

/-- **C28 fails** when a column is requested at or left of the previous one after an append that fills the series window
(euclidean.py:77 computes the number of dropped points from the window length *after* the push): window of 4 points, m = 1,
query (0, 1); 3 points, column 2, then 2 more points. The series window is now (0, 1, 7, 8); the distance between the
points q[1] = 1 and s[1] = 1 is reported as the square root of 1. -/
theorem C28_wrong_column_after_append :
    ∃ ops : List (GOp ℚ), GSt.All 4 (some 2) (fun st op => st.Valid 1 (some 2) op) ⟨[], [], none⟩ (ops ++ [.column 1]) ∧
      (GSt.run 4 (some 2) ⟨[], [], none⟩ ops).s = [0, 1, 7, 8] ∧ (GSt.run 4 (some 2) ⟨[], [], none⟩ ops).q = [0, 1] ∧
      (do let g ← Eucl.run zeroMem id (Eucl.prepareStreaming zeroMem 2 1 4 (some 2)) ops
          let r ← Eucl.calcColumn zeroMem id g 1
          return r.2) = .ok [.fin 1, .fin 1] := by
  refine ⟨[.query [0, 1], .series [5, 0, 1], .column 2, .series [7, 8]], ?_, ?_, ?_, ?_⟩
  · simp [GSt.All, GSt.Valid, GSt.step, lastN]
  · simp [GSt.run, GSt.step, lastN]
  · simp [GSt.run, GSt.step, lastN]
  · decide +kernel

/-- **C28 fails** below 1e-15: series (2e-8, 5), query (0, 5), m = 1. Column 0 stores the squared distance 4e-16 as 0; column 1
derives from it -4e-16 for the pair (5, 5), so that identical points get NaN. -/
theorem C28_tiny_distance_gives_nan :
    (do let g ← Eucl.prepare zeroMem 1 [.fin (1 / 50000000), .fin 5] (some [.fin 0, .fin 5])
        let g ← Eucl.run zeroMem id g [.column 0]
        let r ← Eucl.calcColumn zeroMem id g 1
        return r.2) = .ok [.fin 25, .nan] := by
  decide +kernel

/-! ### C32 -/

/-- **C32** (Euclidean): in a self-join, diagonal `-d` has the same values as diagonal `d`, after any history. -/
theorem C32_euclidean_symmetric (mem : Nat → List (Fl K)) (hmem : ∀ n, (mem n).length = n) (sq : K → K) (m N : Nat)
    (g0 g : ColCache K) (st0 : GSt K) (hm : 0 < m) (h0 : Eucl.Fresh mem m g0 N none st0) (ops : List (GOp K))
    (hrun : Eucl.run mem sq g0 ops = .ok g) (d : Int) (hd : |d| + m ≤ (st0.run N none ops).s.length) :
    ∃ vs, Eucl.calcDiagonal sq g d = .ok vs ∧ Eucl.calcDiagonal sq g (-d) = .ok vs := by
  have hdata := Eucl.run_data mem sq g0 g m N none st0 ops (h0.data hmem hm).1 hrun
  have hq := hdata.query.2
  have h1 := neg_le_abs d
  have h2 := le_abs_self d
  have h3 := abs_nonneg d
  refine ⟨_, Eucl.calcDiagonal_ok sq g m N none _ d hdata ⟨by omega, by rw [hq]; omega, by omega, by rw [hq]; omega⟩, ?_⟩
  rw [Eucl.calcDiagonal_ok sq g m N none _ (-d) hdata ⟨by omega, by rw [hq]; omega, by omega, by rw [hq]; omega⟩, hq, neg_neg]
  congr 1
  rw [show diagEntries m (st0.run N none ops).s.length (st0.run N none ops).s.length (-d) =
    diagEntries m (st0.run N none ops).s.length (st0.run N none ops).s.length d by unfold diagEntries; rw [neg_neg, min_comm]]
  apply List.map_congr_left
  intro k _
  congr 2
  unfold sqd
  exact Finset.sum_congr rfl fun x _ => by ring

/-- **C32** (Euclidean): in a self-join the main diagonal is zero. -/
theorem C32_euclidean_main_diagonal (mem : Nat → List (Fl K)) (hmem : ∀ n, (mem n).length = n) (sq : K → K) (hsq : sq 0 = 0) (m N : Nat)
    (g0 g : ColCache K) (st0 : GSt K) (hm : 0 < m) (h0 : Eucl.Fresh mem m g0 N none st0) (ops : List (GOp K))
    (hrun : Eucl.run mem sq g0 ops = .ok g) (hd : m ≤ (st0.run N none ops).s.length) :
    Eucl.calcDiagonal sq g 0 = .ok (List.replicate ((st0.run N none ops).s.length - m + 1) (.fin 0)) := by
  have hdata := Eucl.run_data mem sq g0 g m N none st0 ops (h0.data hmem hm).1 hrun
  have hq := hdata.query.2
  rw [Eucl.calcDiagonal_ok sq g m N none _ 0 hdata ⟨by omega, by rw [hq]; omega, by omega, by rw [hq]; omega⟩, hq]
  congr 1
  rw [List.eq_replicate_iff]
  refine ⟨by simp [diagEntries]; omega, ?_⟩
  intro x hx
  obtain ⟨k, -, rfl⟩ := List.mem_map.mp hx
  rw [show sqd m (seqOf (st0.run N none ops).s) (seqOf (st0.run N none ops).s) ((-(0 : Int)).toNat + k) ((0 : Int).toNat + k) = 0 by
    unfold sqd; exact Finset.sum_eq_zero fun x _ => by simp, hsq]

/-! ### Concrete cases -/

/-- A streaming history with cached and uncached columns, a wrap-around of the series window, diagonals and a query append. -/
def exOps : List (GOp ℚ) :=
  [.query [0, 1], .series [5, 0, 1], .column 0, .column 1, .diag 1, .series [7], .column 2, .series [8, 2], .column 1, .query [3], .column 0]

example : GSt.All 4 (some 3) (fun st op => st.Valid 2 (some 3) op ∧ st.Safe op) ⟨[], [], none⟩ (exOps ++ [.column 1]) := by
  simp [exOps, GSt.All, GSt.Valid, GSt.Safe, GSt.step, lastN]

example : Eucl.Fresh zeroMem 2 (Eucl.prepareStreaming zeroMem 2 2 4 (some 3)) 4 (some 3) ⟨[], [], none⟩ :=
  .streaming 2 4 (some 3) (by norm_num) (by norm_num) (by norm_num) (by simp)

/-- the generator does answer, with the distances of the windows (1, 7, 8, 2) and (0, 1, 3) -/
example : (do let g ← Eucl.run zeroMem id (Eucl.prepareStreaming zeroMem 2 2 4 (some 3)) exOps
              let r ← Eucl.calcColumn zeroMem id g 1
              return r.2) = .ok [.fin (7 ^ 2 + 7 ^ 2), .fin (6 ^ 2 + 5 ^ 2)] := by
  decide +kernel

example : (do let g ← Eucl.run zeroMem id (Eucl.prepareStreaming zeroMem 2 2 4 (some 3)) exOps
              Eucl.calcDiagonal id g 1) = .ok [.fin (7 ^ 2 + 7 ^ 2), .fin (7 ^ 2 + 1 ^ 2)] := by
  decide +kernel

example : Eucl.NoTiny 1 [5, 0, 1] ([0, 1] : List ℚ) := by
  intro i j hi hj
  simp only [List.length_cons, List.length_nil] at hi hj
  have hi : i < 2 := by omega
  have hj : j < 3 := by omega
  interval_cases i <;> interval_cases j <;> norm_num [sqd, seqOf, Eucl.eps]

example : GSt.All 3 (some 2) (fun st op => st.Valid 1 (some 2) op ∧ st.Safe op ∧ ∀ c, op = .column c → Eucl.NoTiny 1 st.s st.q) ⟨[5, 0, 1], [0, 1], none⟩
    ([.column 1, .column 2, .column 0, .diag 1] ++ [GOp.column (K := ℚ) 1]) := by
  have h : Eucl.NoTiny 1 [5, 0, 1] ([0, 1] : List ℚ) := by
    intro i j hi hj
    simp only [List.length_cons, List.length_nil] at hi hj
    have hi : i < 2 := by omega
    have hj : j < 3 := by omega
    interval_cases i <;> interval_cases j <;> norm_num [sqd, seqOf, Eucl.eps]
  simp [GSt.All, GSt.Valid, GSt.Safe, GSt.step, h]

/-- self-join: diagonals 1 and -1 of (1, 4, 2, 2) -/
example : (do let g ← Eucl.prepare zeroMem 2 [.fin 1, .fin 4, .fin 2, .fin 2] none
              let a ← Eucl.calcDiagonal id g 1
              let b ← Eucl.calcDiagonal id g (-1)
              return (a, b)) = .ok ([.fin 13, .fin 4], [.fin 13, .fin 4]) := by
  decide +kernel

end

/-- `C28_column_partial`. -/
example := C28_column_partial (K := ℚ) zeroMem (fun n => by simp [zeroMem]) id 2 4 (some 3) (Eucl.prepareStreaming zeroMem 2 2 4 (some 3)) ⟨[], [], none⟩ (by norm_num)
  (.streaming 2 4 (some 3) (by norm_num) (by norm_num) (by norm_num) (by simp)) exOps 1 (by simp [exOps, GSt.All, GSt.Valid, GSt.Safe, GSt.step, lastN])

/-- `C28_uncached_column`: column 0. -/
example := C28_uncached_column (K := ℚ) zeroMem (fun n => by simp [zeroMem]) id 2 4 (some 3) (Eucl.prepareStreaming zeroMem 2 2 4 (some 3)) ⟨[], [], none⟩ (by norm_num)
  (.streaming 2 4 (some 3) (by norm_num) (by norm_num) (by norm_num) (by simp)) exOps 0 (by simp [exOps, GSt.All, GSt.Valid, GSt.Safe, GSt.step, lastN]) (.inl rfl)

/-- `C27_diagonal` after the calls of `exOps`. -/
example (g : ColCache ℚ) (hg : Eucl.run zeroMem id (Eucl.prepareStreaming zeroMem 2 2 4 (some 3)) exOps = .ok g) :=
  C27_diagonal (K := ℚ) zeroMem (fun n => by simp [zeroMem]) id 2 4 (some 3) (Eucl.prepareStreaming zeroMem 2 2 4 (some 3)) g ⟨[], [], none⟩ (by norm_num)
    (.streaming 2 4 (some 3) (by norm_num) (by norm_num) (by norm_num) (by simp)) exOps hg 1 (by simp [exOps, GSt.run, GSt.Valid, GSt.step, lastN])

/-- `C28_column_exact_partial` and `C28_batch_any_order_partial`: columns in any order. -/
example (g0 : ColCache ℚ) (h0 : Eucl.prepare zeroMem 1 [.fin 5, .fin 0, .fin 1] (some [.fin 0, .fin 1]) = .ok g0) :=
  C28_column_exact_partial (K := ℚ) zeroMem (fun n => by simp [zeroMem]) id 1 3 (some 2) g0 ⟨[5, 0, 1], [0, 1], none⟩ (by norm_num) (.batch [5, 0, 1] (some [0, 1]) g0 (by decide) (by simp) h0)
    [.column 1, .column 2, .column 0, .diag 1] 1 (by
      have h : Eucl.NoTiny 1 [5, 0, 1] ([0, 1] : List ℚ) := by
        intro i j hi hj
        simp only [List.length_cons, List.length_nil] at hi hj
        have hi : i < 2 := by omega
        have hj : j < 3 := by omega
        interval_cases i <;> interval_cases j <;> norm_num [sqd, seqOf, Eucl.eps]
      simp [GSt.All, GSt.Valid, GSt.Safe, GSt.step, h])

/-- `C28_batch_any_order_partial`. -/
example (g0 : ColCache ℚ) (h0 : Eucl.prepare zeroMem 2 [.fin 5, .fin 0, .fin 1] (some [.fin 0, .fin 1]) = .ok g0) :=
  C28_batch_any_order_partial (K := ℚ) zeroMem (fun n => by simp [zeroMem]) id 2 3 (some 2) g0 ⟨[5, 0, 1], [0, 1], none⟩ (by norm_num)
    (.batch [5, 0, 1] (some [0, 1]) g0 (by decide) (by simp) h0) [.column 1, .diag 1, .column 0] 1 (by simp) (by simp [GSt.All, GSt.Valid, GSt.step])

/-- `C32_euclidean_symmetric` and `C32_euclidean_main_diagonal`: the self-join of (1, 4, 2, 2). -/
example (g : ColCache ℚ) (h0 : Eucl.prepare zeroMem 2 [.fin 1, .fin 4, .fin 2, .fin 2] none = .ok g) : ∃ vs, Eucl.calcDiagonal id g 1 = .ok vs ∧ Eucl.calcDiagonal id g (-1) = .ok vs :=
  C32_euclidean_symmetric (K := ℚ) zeroMem (fun n => by simp [zeroMem]) id 2 4 g g ⟨[1, 4, 2, 2], [1, 4, 2, 2], none⟩ (by norm_num)
    (.batch [1, 4, 2, 2] none g (by decide) (by simp) h0) [] rfl 1 (by decide)

example (g : ColCache ℚ) (h0 : Eucl.prepare zeroMem 2 [.fin 1, .fin 4, .fin 2, .fin 2] none = .ok g) : Eucl.calcDiagonal id g 0 = .ok [.fin 0, .fin 0, .fin 0] :=
  C32_euclidean_main_diagonal (K := ℚ) zeroMem (fun n => by simp [zeroMem]) id rfl 2 4 g g ⟨[1, 4, 2, 2], [1, 4, 2, 2], none⟩ (by norm_num)
    (.batch [1, 4, 2, 2] none g (by decide) (by simp) h0) [] rfl (by decide)

end Verif
