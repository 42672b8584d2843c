import Verif.Model.RoundedZNorm
import Verif.Lemmas.RoundedRuns
import Verif.Props.ZNorm

/-! Sequences of calls of the z-normalised generator in floating point. -/

namespace Verif
open Spec

namespace RoundedZ
variable {K : Type} [Field K] [LinearOrder K] {rnd : K → K} {stat : Stat K} {mem : Mem K} {sq : K → K}
  {conv : List (Fl K) → List (Fl K) → Except PyErr (List (Fl K))}

/-- `np.empty` returns as many elements as asked for. -/
def Mem.Ok (mem : Mem K) : Prop := (∀ n, (mem.fl n).length = n) ∧ (∀ n, (mem.num n).length = n) ∧ ∀ n, (mem.bool n).length = n

/-- One call on finite data (outputs discarded); an exception ends the sequence. -/
def exec (rnd : K → K) (stat : Stat K) (conv : List (Fl K) → List (Fl K) → Except PyErr (List (Fl K))) (mem : Mem K) (sq : K → K)
    (z : Gen K) : GOp K → Except PyErr (Gen K)
  | .series v => appendSeries rnd stat z (v.map .fin)
  | .query v => appendQuery rnd stat z (v.map .fin)
  | .column c => (calcColumn rnd conv mem.fl sq z c).map Prod.fst
  | .diag d => (calcDiagonal rnd sq z d).map fun _ => z

/-- A sequence of calls; stops at the first one that raises. -/
def run (rnd : K → K) (stat : Stat K) (conv : List (Fl K) → List (Fl K) → Except PyErr (List (Fl K))) (mem : Mem K) (sq : K → K)
    (z : Gen K) : List (GOp K) → Except PyErr (Gen K)
  | [] => .ok z
  | op :: ops => do run rnd stat conv mem sq (← exec rnd stat conv mem sq z op) ops

/-- A newly created generator: its window lengths and contents. -/
inductive Fresh (rnd : K → K) (stat : Stat K) (mem : Mem K) (m : Nat) (noise : K) : Gen K → Nat → Option Nat → GSt K → Prop
  | streaming (scale : ℚ) (N : Nat) (M : Option Nat) (z : Gen K) (h1 : 1 ≤ scale) (h2 : scale ≤ 2) (hm : m ≤ N) (hM : ∀ M', M = some M' → m ≤ M')
      (h : prepareStreaming mem noise scale m N M = .ok z) : Fresh rnd stat mem m noise z N M ⟨[], [], none⟩
  | batch (s : List K) (q : Option (List K)) (z : Gen K) (hm : m ≤ s.length) (hq : ∀ q', q = some q' → m ≤ q'.length)
      (h : prepare rnd stat mem noise m (s.map .fin) (q.map (·.map .fin)) = .ok z) :
      Fresh rnd stat mem m noise z s.length (q.map (·.length)) ⟨s, q.getD s, none⟩

/-- Statistics in step with a window. -/
structure StatsOk (rnd : K → K) (stat : Stat K) (st : Stats K) (N m : Nat) (x : List K) : Prop where
  mu : st.mu.Good (N + 1 - m)
  std : st.std.Good (N + 1 - m)
  nz : st.nz.Good (N + 1 - m)
  mu_eq : st.mu.items = (windows m x).map stat.mean
  std_eq : st.std.items = (windows m x).map stat.std
  nz_eq : st.nz.items = (windows m x).map fun w => decide (stat.std w > rnd flat)

theorem slidingMeanStd_ok (xs : List K) (m : Nat) (hm : 0 < m) (h : m ≤ xs.length) :
    slidingMeanStd stat (xs.map .fin) m = .ok ((windows m xs).map stat.mean, (windows m xs).map stat.std) := by
  unfold slidingMeanStd
  have hf : (xs.map Fl.fin).all Fl.isFinite = true := by simp [Fl.isFinite]
  have hv : (xs.map Fl.fin).map value = xs := by rw [List.map_map]; simp [Function.comp_def, value]
  rw [if_neg (by omega), hf, if_neg (by simp), hv, Int.toNat_natCast, slidingWindows_ok xs m hm h]
  rfl

theorem pushStats_ok (st : Stats K) (N m : Nat) (x d : List K) (hm : 0 < m) (hN : m ≤ N) (hd : 0 < d.length) (h : StatsOk rnd stat st N m x) :
    ∃ st', pushStats rnd stat st m ((lastN N (x ++ d)).map .fin) d.length = .ok st' ∧ StatsOk rnd stat st' N m (lastN N (x ++ d)) := by
  unfold pushStats
  by_cases hlen : m ≤ (lastN N (x ++ d)).length
  · rw [if_pos (by rw [List.length_map]; exact_mod_cast hlen)]
    have hfrom : pyFrom ((lastN N (x ++ d)).map Fl.fin) (-((d.length : Int) + (m : Int) - 1)) =
        (lastN (d.length + m - 1) (lastN N (x ++ d))).map Fl.fin := by
      rw [show -((d.length : Int) + (m : Int) - 1) = -((d.length + m - 1 : Nat) : Int) by omega, pyFrom_neg _ _ (by omega), lastN_map]
    rw [hfrom, slidingMeanStd_ok _ m hm (by rw [lastN_length]; omega)]
    set w := windows m (lastN (d.length + m - 1) (lastN N (x ++ d))) with hw
    obtain ⟨b1, p1, g1, i1, -⟩ := h.mu.push (w.map stat.mean)
    obtain ⟨b2, p2, g2, i2, -⟩ := h.std.push (w.map stat.std)
    obtain ⟨b3, p3, g3, i3, -⟩ := h.nz.push ((w.map stat.std).map fun x => decide (x > rnd flat))
    simp only [p1, p2, p3, bind, Except.bind, pure, Except.pure]
    have hder := windows_derived m N x d hm hN
    refine ⟨_, rfl, ⟨g1, g2, g3, ?_, ?_, ?_⟩⟩
    · rw [i1, h.mu_eq, ← List.map_append, lastN_map, hder]
    · rw [i2, h.std_eq, ← List.map_append, lastN_map, hder]
    · rw [i3, h.nz_eq, List.map_map]
      rw [show ((fun x => decide (x > rnd flat)) ∘ stat.std) = fun w => decide (stat.std w > rnd flat) from rfl, ← List.map_append, lastN_map, hder]
  · rw [if_neg (by rw [List.length_map]; exact_mod_cast hlen)]
    have hnew : windows m (lastN N (x ++ d)) = [] := windows_eq_nil _ _ (by omega)
    have hold : windows m x = [] := windows_eq_nil _ _ (by rw [lastN_length, List.length_append] at hlen; omega)
    exact ⟨st, rfl, ⟨h.mu, h.std, h.nz, by rw [h.mu_eq, hold, hnew], by rw [h.std_eq, hold, hnew], by rw [h.nz_eq, hold, hnew]⟩⟩

theorem emptyStats_ok (hr : ∀ n, (mem.num n).length = n) (hb : ∀ n, (mem.bool n).length = n) (scale : ℚ) (h1 : 1 ≤ scale)
    (h2 : scale ≤ 2) (n m : Nat) (hm : 0 < m) (h : m ≤ n) :
    ∃ st, emptyStats mem.num mem.bool scale n m = .ok st ∧ StatsOk rnd stat st n m [] := by
  unfold emptyStats
  rw [if_neg (by omega)]
  have hk : ((n : Int) - (m : Int) + 1).toNat = n + 1 - m := by omega
  have hw : windows m ([] : List K) = [] := windows_eq_nil _ _ (by simpa using hm)
  simp only [hk]
  refine ⟨_, rfl, ⟨RB.mkEmpty_good_scale scale h1 h2 _ _ _ (by omega) (hr _), RB.mkEmpty_good_scale scale h1 h2 _ _ _ (by omega) (hr _),
    RB.mkEmpty_good_scale scale h1 h2 _ _ _ (by omega) (hb _), ?_, ?_, ?_⟩⟩
  · rw [hw]; exact RB.mkEmpty_items _ _ _
  · rw [hw]; exact RB.mkEmpty_items _ _ _
  · rw [hw]; exact RB.mkEmpty_items _ _ _

/-- Entry `i` of statistics in step with a window. -/
theorem StatsOk.at {st : Stats K} {N m : Nat} {x : List K} (h : StatsOk rnd stat st N m x) (i : Nat) (hi : i + m ≤ x.length) :
    st.mu.items[i]? = some (stat.mean ((x.drop i).take m)) ∧ st.std.items[i]? = some (stat.std ((x.drop i).take m)) ∧
      st.nz.items[i]? = some (decide (stat.std ((x.drop i).take m) > rnd flat)) := by
  have hw : (windows m x)[i]? = some ((x.drop i).take m) := by rw [windows_getElem?, if_pos (by omega)]
  refine ⟨?_, ?_, ?_⟩
  · rw [h.mu_eq, List.getElem?_map, hw, Option.map_some]
  · rw [h.std_eq, List.getElem?_map, hw, Option.map_some]
  · rw [h.nz_eq, List.getElem?_map, hw, Option.map_some]

theorem StatsOk.len {st : Stats K} {N m : Nat} {x : List K} (h : StatsOk rnd stat st N m x) :
    st.mu.items.length = x.length + 1 - m ∧ st.std.items.length = x.length + 1 - m ∧ st.nz.items.length = x.length + 1 - m := by
  refine ⟨?_, ?_, ?_⟩
  · rw [h.mu_eq]; simp
  · rw [h.std_eq]; simp
  · rw [h.nz_eq]; simp

/-- Query statistics in step with the query window. -/
def QOk (rnd : K → K) (stat : Stat K) (qst : Option (Stats K)) (m : Nat) (M : Option Nat) (q : List K) : Prop :=
  match M with
  | none => qst = none
  | some M => m ≤ M ∧ ∃ st, qst = some st ∧ StatsOk rnd stat st M m q

/-- Data and statistics in step with the two windows. -/
structure Base (rnd : K → K) (stat : Stat K) (z : Gen K) (m : Nat) (noise : K) (N : Nat) (M : Option Nat) (s q : List K) : Prop where
  data : z.core.Data m N M s q
  noise_eq : z.noise = noise
  sStats : StatsOk rnd stat z.sStats N m s
  qStats : QOk rnd stat z.qStats m M q

theorem Base.qs {z : Gen K} {m : Nat} {noise : K} {N : Nat} {M : Option Nat} {s q : List K} (h : Base rnd stat z m noise N M s q) :
    ∃ M', StatsOk rnd stat z.qs M' m q := by
  have h1 := h.qStats
  have h2 := h.data.query
  cases M with
  | none =>
    refine ⟨N, ?_⟩
    rw [Gen.qs, h1, h2.2]; exact h.sStats
  | some M =>
    obtain ⟨-, st, h3, h4⟩ := h1
    exact ⟨M, by rw [Gen.qs, h3]; exact h4⟩

variable {R : K → List K → List K → Prop} {P : Nat → K → List K → List K → Prop}

theorem appendSeries_ok (z : Gen K) (m : Nat) (noise : K) (N : Nat) (M : Option Nat) (st : GSt K) (v : List K)
    (hb : Base rnd stat z m noise N M st.s st.q) :
    ∃ z', appendSeries rnd stat z (v.map .fin) = .ok z' ∧ Base rnd stat z' m noise N M (st.step N M (.series v)).s (st.step N M (.series v)).q ∧
      ∀ P : Nat → K → List K → List K → Prop, Rounded.Cache R P z.core m N st.s st.q st.last →
        Rounded.Cache R P z'.core m N (st.step N M (.series v)).s (st.step N M (.series v)).q (st.step N M (.series v)).last := by
  unfold appendSeries
  rw [List.length_map]
  by_cases hv : v.length = 0
  · rw [if_pos hv]
    exact ⟨z, rfl, by simpa [GSt.step, hv] using hb, fun P h => by simpa [GSt.step, hv] using h⟩
  · rw [if_neg hv]
    obtain ⟨rb, h1, h2, h3⟩ := z.core.pushSeries_data m N M st.s st.q v hb.data
    obtain ⟨st', h4, h5⟩ := pushStats_ok z.sStats N m st.s v hb.data.m_pos hb.data.m_le (by omega) hb.sStats
    have hp : pushStats rnd stat z.sStats z.core.m rb.items v.length = .ok st' := by rw [hb.data.m_eq, h3]; exact h4
    simp only [h1, ColCache.s, hp, bind, Except.bind, pure, Except.pure]
    have hfd := z.core.finishSeries_data m N M st.s st.q v hb.data rb (z.core.backlog + v.length) (st.s.length + v.length - N)
        ((v.length : Int) - (N - min N (st.s.length + v.length) : Nat)) h2 h3
    refine ⟨_, rfl, ⟨?_, hb.noise_eq, ?_, ?_⟩, fun P hc => ?_⟩
    · cases M <;> simpa [GSt.step, hv] using hfd
    · cases M <;> simpa [GSt.step, hv] using h5
    · have := hb.qStats
      cases M <;> simpa [GSt.step, hv, QOk] using this
    · exact Rounded.finishSeries_cache z.core m N M st v hb.data hc hv rb

theorem appendQuery_ok (z : Gen K) (m : Nat) (noise : K) (N M : Nat) (st : GSt K) (v : List K)
    (hb : Base rnd stat z m noise N (some M) st.s st.q) :
    ∃ z', appendQuery rnd stat z (v.map .fin) = .ok z' ∧
      Base rnd stat z' m noise N (some M) (st.step N (some M) (.query v)).s (st.step N (some M) (.query v)).q ∧
      ∀ P : Nat → K → List K → List K → Prop, Rounded.Cache R P z.core m N st.s st.q st.last →
        Rounded.Cache R P z'.core m N (st.step N (some M) (.query v)).s (st.step N (some M) (.query v)).q (st.step N (some M) (.query v)).last := by
  obtain ⟨rq, hrq, -⟩ := hb.data.query
  unfold appendQuery
  simp only [hrq, List.length_map]
  by_cases hv : v.length = 0
  · rw [if_pos hv]
    exact ⟨z, rfl, by simpa [GSt.step, hv] using hb, fun P h => by simpa [GSt.step, hv] using h⟩
  · rw [if_neg hv]
    obtain ⟨rq', g2, a, b, c, d, e⟩ := z.core.pushQuery_ok (F := fun a b : K => a * b) (C := id) (P := Eq) m N M st v hb.data hv
    rw [hrq] at a; cases a
    obtain ⟨hmM, qst, hq1, hq2⟩ := hb.qStats
    obtain ⟨st', h4, h5⟩ := pushStats_ok qst M m st.q v hb.data.m_pos hmM (by omega) hq2
    have hqs : z.qs = qst := by rw [Gen.qs, hq1]; rfl
    simp only [b, c.m_eq, c.q_eq, hqs, h4, bind, Except.bind, pure, Except.pure]
    refine ⟨_, rfl, ⟨?_, hb.noise_eq, by simpa [GSt.step, hv] using hb.sStats, hmM, st', rfl, ?_⟩, fun P hc => ?_⟩
    · simpa [GSt.step, hv] using c
    · simpa [GSt.step, hv] using h5
    · obtain ⟨rq2, g3, a3, b3, c3⟩ := Rounded.pushQuery_cache z.core m N M st v hb.data hv hc
      rw [hrq] at a3; cases a3
      rw [b] at b3; cases b3
      simpa [GSt.step, hv] using c3

theorem zipEntries_ok {β : Type} (f : Fl K → K → K → Bool → β) (dot : List (Fl K)) (mu std : List K) (nz : List Bool) (h1 : mu.length = dot.length)
    (h2 : std.length = dot.length) (h3 : nz.length = dot.length) :
    ∃ r : List β, zipEntries f dot mu std nz = .ok r ∧ r.length = dot.length ∧
      ∀ (i : Nat) a b c d, dot[i]? = some a → mu[i]? = some b → std[i]? = some c → nz[i]? = some d → r[i]? = some (f a b c d) := by
  refine ⟨_, by rw [zipEntries, if_pos ⟨h1, h2, h3⟩], by simp [h1, h2, h3], ?_⟩
  intro i a b c d ha hb hc hd
  rw [List.getElem?_zipWith, ha]
  have : (mu.zip (std.zip nz))[i]? = some (b, c, d) := by
    rw [List.getElem?_zip_eq_some, List.getElem?_zip_eq_some]; exact ⟨hb, hc, hd⟩
  rw [this]

/-- What relates calculated dot products to windows: `R` after `convolve`, `P n` after at most `n` steps from a column to the next. -/
structure Steps (rnd : K → K) (conv : List (Fl K) → List (Fl K) → Except PyErr (List (Fl K))) (R : K → List K → List K → Prop)
    (P : Nat → K → List K → List K → Prop) (m : Nat) (s q : List K) : Prop where
  row : ∀ n, m ≤ n → Rounded.FullRel m R conv (lastN n s) (q.take m)
  col : ∀ j, j + m ≤ s.length → Rounded.FullRel m R conv q ((s.drop j).take m)
  start : ∀ n j i v, j + m ≤ s.length → i + m ≤ q.length → R v ((q.drop i).take m) ((s.drop j).take m) →
    P n v ((s.drop j).take m) ((q.drop i).take m)
  start0 : ∀ n j v, j + m ≤ s.length → R v ((s.drop j).take m) (q.take m) → P n v ((s.drop j).take m) (q.take m)
  step : ∀ n j i v, j + 1 + m ≤ s.length → i + 1 + m ≤ q.length → P n v ((s.drop j).take m) ((q.drop i).take m) →
    P (n + 1) (rnd (rnd (v - rnd (seqOf s j * seqOf q i)) + rnd (seqOf s (j + m) * seqOf q (i + m))))
      ((s.drop (j + 1)).take m) ((q.drop (i + 1)).take m)

theorem mul_fin (x y : K) : Rounded.mul rnd (.fin x) (.fin y) = .fin (rnd (x * y)) := by simp [Rounded.mul, Rounded.fl]

/-- The entry of one pair, given its dot product. -/
def colValue (rnd : K → K) (stat : Stat K) (m : Nat) (noise v : K) (w x : List K) : Fl K :=
  colEntry rnd m noise (decide (stat.std w > rnd flat)) (stat.mean w) (stat.std w) (.fin v) (stat.mean x) (stat.std x) (decide (stat.std x > rnd flat))

theorem calcColumn_ok (hmem : mem.Ok) (z : Gen K) (m : Nat) (noise : K) (N : Nat) (M : Option Nat) (st : GSt K) (c : Nat) (f f' : Nat → Nat)
    (hf : ∀ i, f' (i + 1) = f i + 1) (hb : Base rnd stat z m noise N M st.s st.q) (hc : Rounded.Cache R (fun i => P (f i)) z.core m N st.s st.q st.last) (hv : st.Valid m M (.column c))
    (hsafe : st.Safe (.column c)) (hst : Steps rnd conv R P m st.s st.q) :
    ∃ z' vs, calcColumn rnd conv mem.fl sq z c = .ok (z', vs) ∧ Base rnd stat z' m noise N M st.s st.q ∧
      Rounded.Cache R (fun i => P (f' i)) z'.core m N st.s st.q (some ((c : Int), true)) ∧ vs.length = st.q.length + 1 - m ∧
      ∀ i, i + m ≤ st.q.length → ∃ v,
        vs[i]? = some (Rounded.fl rnd (Fl.sqrtF sq (colValue rnd stat m noise v ((st.s.drop c).take m) ((st.q.drop i).take m)))) ∧
        P (f' i) v ((st.s.drop c).take m) ((st.q.drop i).take m) := by
  obtain ⟨v1, v2⟩ := hv
  obtain ⟨g', vs, h1, h2, h3, -, h4, h5⟩ := Rounded.column_ok (rnd := rnd) (full := conv) (term := Rounded.mul rnd) (mem := mem.fl) (R := R) (P := fun i => P (f i))
    (P' := fun i => P (f' i)) z.core m N M st.s st.q st.last c (fun x y => rnd (x * y)) hmem.1 mul_fin hb.data hc v1 v2 hsafe
    hst.row (hst.col c v1)
    (fun i v hi => hst.start (f' i) c i v v1 hi)
    (fun v => hst.start0 (f' 0) c v v1)
    (fun i c' v hcc hi hp => by subst hcc; simp only [hf]; exact hst.step (f i) c' i v v1 hi hp)
  obtain ⟨M', hq⟩ := hb.qs
  obtain ⟨s1, s2, s3⟩ := hb.sStats.at c v1
  have hz : npZeros (K := K) ((z.core.q.length : Int) - z.core.m + 1) = .ok (List.replicate (st.q.length + 1 - m) (.fin 0)) := by
    rw [hb.data.q_eq, List.length_map, hb.data.m_eq]
    unfold npZeros
    rw [if_neg (by omega)]
    congr 2; omega
  obtain ⟨r, hr1, hr2, hr3⟩ := zipEntries_ok (colEntry rnd z.core.m z.noise (decide (stat.std ((st.s.drop c).take m) > rnd flat))
    (stat.mean ((st.s.drop c).take m)) (stat.std ((st.s.drop c).take m))) vs z.qs.mu.items z.qs.std.items z.qs.nz.items
    (by rw [hq.len.1, h4]) (by rw [hq.len.2.1, h4]) (by rw [hq.len.2.2, h4])
  refine ⟨{ z with core := g' }, r.map fun v => Rounded.fl rnd (Fl.sqrtF sq v), ?_, ⟨h2, hb.noise_eq, hb.sStats, hb.qStats⟩, h3,
    by rw [List.length_map, hr2, h4], ?_⟩
  · unfold calcColumn
    simp only [hz, h1, pyGet_at _ _ _ s1, pyGet_at _ _ _ s2, pyGet_at _ _ _ s3, hr1, bind, Except.bind, pure, Except.pure,
      List.length_replicate, h4, ne_eq, not_true_eq_false, if_false]
  · intro i hi
    obtain ⟨v, a, b⟩ := h5 i hi
    obtain ⟨q1, q2, q3⟩ := hq.at i hi
    have he := hr3 i _ _ _ _ a q1 q2 q3
    rw [hb.data.m_eq, hb.noise_eq, Int.cast_natCast] at he
    exact ⟨v, by rw [List.getElem?_map, he]; rfl, b⟩

/-- The products along a diagonal, as calculated. -/
def products (rnd : K → K) (q s : List K) : List K := List.zipWith (fun a b => rnd (a * b)) q s

/-- The entry of one pair on a diagonal, given its dot product. -/
def diagValue (rnd : K → K) (stat : Stat K) (m : Nat) (noise v : K) (w x : List K) : Fl K :=
  diagEntry rnd m noise (.fin v) (stat.mean x) (stat.std x) (decide (stat.std x > rnd flat)) (stat.mean w) (stat.std w) (decide (stat.std w > rnd flat))

/-- The values `calc_diagonal` computes, for any rounding that keeps floats. -/
theorem calcDiagonal_values (hidem : ∀ x, rnd (rnd x) = rnd x) (z : Gen K) (m : Nat) (noise : K) (N : Nat) (M : Option Nat) (st : GSt K) (d : Int)
    (hb : Base rnd stat z m noise N M st.s st.q) (hv : st.Valid m M (.diag d)) :
    ∃ n, n = min (st.q.length - (-d).toNat) (st.s.length - d.toNat) ∧ m ≤ n ∧
      diagEntries m st.q.length st.s.length d = n + 1 - m ∧
      calcDiagonal rnd sq z d = .ok ((List.range (diagEntries m st.q.length st.s.length d)).map fun k =>
        Rounded.fl rnd (Fl.sqrtF sq (diagValue rnd stat m noise (rnd (
          Rounded.pre rnd (products rnd ((st.q.drop (-d).toNat).take n) ((st.s.drop d.toNat).take n)) (k + m) -
          Rounded.pre rnd (products rnd ((st.q.drop (-d).toNat).take n) ((st.s.drop d.toNat).take n)) k))
          ((st.s.drop (d.toNat + k)).take m) ((st.q.drop ((-d).toNat + k)).take m)))) := by
  obtain ⟨v1, v2, v3, v4⟩ := hv
  have hm0 := hb.data.m_pos
  obtain ⟨n, hn1, hn2, hn3⟩ := diagLength_valid m _ _ d v1 v2 v3 v4
  have hent : diagEntries m st.q.length st.s.length d = n + 1 - m := by rw [diagEntries, hn2]
  refine ⟨n, hn2, hn3, hent, ?_⟩
  set l := products rnd ((st.q.drop (-d).toNat).take n) ((st.s.drop d.toNat).take n) with hl
  have hlen : l.length = n := by rw [hl, products]; simp; omega
  have hrep : ∀ x ∈ l, rnd x = x := by
    intro x hx
    rw [hl, products, List.mem_iff_getElem] at hx
    obtain ⟨i, hi, rfl⟩ := hx
    rw [List.getElem_zipWith]
    exact hidem _
  have hql : z.core.q.length = st.q.length := by rw [hb.data.q_eq, List.length_map]
  have hsl : z.core.s.length = st.s.length := by rw [hb.data.s_eq, List.length_map]
  have hdlr : ((n : Int) - (m : Int) + 1) = ((n + 1 - m : Nat) : Int) := by omega
  have hz : npZeros (K := K) (((n + 1 - m : Nat) : Int)) = .ok (List.replicate (n + 1 - m) (.fin 0)) := by
    unfold npZeros
    rw [if_neg (by omega)]; rfl
  have hst : ZN.diagStart d = (((-d).toNat : Int), (d.toNat : Int)) := by
    unfold ZN.diagStart
    split
    · rw [Prod.mk.injEq]; constructor <;> omega
    · rw [Prod.mk.injEq]; constructor <;> omega
  obtain ⟨M', hq⟩ := hb.qs
  have hs := hb.sStats
  set dot : List (Fl K) := (List.range (n + 1 - m)).map fun k => .fin (rnd (Rounded.pre rnd l (k + m) - Rounded.pre rnd l k)) with hdot
  have hdl : dot.length = n + 1 - m := by rw [hdot]; simp
  have hcd : npZip (Rounded.sub rnd) (((List.range (n + 1)).map fun k => Fl.fin (Rounded.pre rnd l k)).drop m)
      (((List.range (n + 1)).map fun k => Fl.fin (Rounded.pre rnd l k)).take (n + 1 - m)) = .ok dot := by
    rw [npZip_ok _ _ _ (by simp)]
    congr 1
    apply List.ext_getElem?
    intro k
    by_cases hk : k < n + 1 - m
    · rw [hdot, List.getElem?_zipWith, List.getElem?_drop, List.getElem?_take, if_pos hk, List.getElem?_map, List.getElem?_map,
        List.getElem?_map, List.getElem?_range (by omega), List.getElem?_range (by omega), List.getElem?_range hk, Nat.add_comm m k]
      simp [Rounded.sub, Rounded.fl]
    · rw [List.getElem?_eq_none (by simp; omega), List.getElem?_eq_none (by rw [hdl]; omega)]
  have slen : ∀ {α : Type} (l : List α) (a : Nat), a + (n + 1 - m) ≤ l.length → (pySlice l (a : Int) ((a : Int) + ((n + 1 - m : Nat) : Int))).length = dot.length := by
    intro α l a h
    rw [pySlice_window, List.length_take, List.length_drop, hdl]; omega
  have hqe : (-d).toNat + (n + 1 - m) ≤ st.q.length + 1 - m := by omega
  have hse : d.toNat + (n + 1 - m) ≤ st.s.length + 1 - m := by omega
  obtain ⟨f, f1, f2, f3⟩ := zipEntries_ok (fun d mu std nz => diagEntry rnd (z.core.m : K) z.noise d mu std nz) dot
    (pySlice z.qs.mu.items ((-d).toNat : Int) (((-d).toNat : Int) + ((n + 1 - m : Nat) : Int)))
    (pySlice z.qs.std.items ((-d).toNat : Int) (((-d).toNat : Int) + ((n + 1 - m : Nat) : Int)))
    (pySlice z.qs.nz.items ((-d).toNat : Int) (((-d).toNat : Int) + ((n + 1 - m : Nat) : Int)))
    (slen _ _ (by rw [hq.len.1]; exact hqe)) (slen _ _ (by rw [hq.len.2.1]; exact hqe)) (slen _ _ (by rw [hq.len.2.2]; exact hqe))
  obtain ⟨e, e1, e2, e3⟩ := zipEntries_ok (fun _ mu std nz => (mu, std, nz)) dot
    (pySlice z.sStats.mu.items (d.toNat : Int) ((d.toNat : Int) + ((n + 1 - m : Nat) : Int)))
    (pySlice z.sStats.std.items (d.toNat : Int) ((d.toNat : Int) + ((n + 1 - m : Nat) : Int)))
    (pySlice z.sStats.nz.items (d.toNat : Int) ((d.toNat : Int) + ((n + 1 - m : Nat) : Int)))
    (slen _ _ (by rw [hs.len.1]; exact hse)) (slen _ _ (by rw [hs.len.2.1]; exact hse)) (slen _ _ (by rw [hs.len.2.2]; exact hse))
  unfold calcDiagonal
  simp only [hql, hsl, hn1, bind, Except.bind, pure, Except.pure,
    z.core.diagPoints_ok (Rounded.mul rnd) (fun a b => rnd (a * b)) mul_fin m N M _ _ hb.data d n hn2]
  rw [show List.zipWith (fun a b => rnd (a * b)) ((st.q.drop (-d).toNat).take n) ((st.s.drop d.toNat).take n) = l from rfl]
  simp only [Rounded.cumsum0_ok _ n hlen hrep, hst, hb.data.m_eq, hdlr, pyTo_nat, pyFrom_nat, hcd, hz, List.length_replicate]
  rw [hb.data.m_eq] at f1 f3
  simp only [f1, e1, hdl, ne_eq, not_true_eq_false, if_false]
  congr 1
  rw [hent]
  apply List.ext_getElem?
  intro k
  by_cases hk : k < n + 1 - m
  · obtain ⟨q1, q2, q3⟩ := hq.at ((-d).toNat + k) (by omega)
    obtain ⟨s1, s2, s3⟩ := hs.at (d.toNat + k) (by omega)
    have hdk : dot[k]? = some (.fin (rnd (Rounded.pre rnd l (k + m) - Rounded.pre rnd l k))) := by
      rw [hdot, List.getElem?_map, List.getElem?_range hk]; rfl
    have hf := f3 k _ _ _ _ hdk (by rw [ZN.pySlice_at _ _ _ _ hk]; exact q1) (by rw [ZN.pySlice_at _ _ _ _ hk]; exact q2) (by rw [ZN.pySlice_at _ _ _ _ hk]; exact q3)
    have he := e3 k _ _ _ _ hdk (by rw [ZN.pySlice_at _ _ _ _ hk]; exact s1) (by rw [ZN.pySlice_at _ _ _ _ hk]; exact s2) (by rw [ZN.pySlice_at _ _ _ _ hk]; exact s3)
    rw [List.getElem?_map, List.getElem?_zipWith, hf, he, List.getElem?_map, List.getElem?_range hk]
    simp only [Option.map_some]
    rw [hb.noise_eq, Int.cast_natCast]
    rfl
  · rw [List.getElem?_eq_none (by simp [f2, e2, hdl]; omega), List.getElem?_eq_none (by simp; omega)]

theorem calcColumn_frame (mem : Nat → List (Fl K)) (z z' : Gen K) (c : Int) (vs : List (Fl K)) (h : calcColumn rnd conv mem sq z c = .ok (z', vs)) :
    ∃ g', z' = { z with core := g' } ∧ g'.series = z.core.series ∧ g'.query = z.core.query ∧ g'.m = z.core.m := by
  unfold calcColumn at h
  simp only [bind, Except.bind, pure, Except.pure] at h
  split at h
  · cases h
  · split at h
    · cases h
    · rename_i r hr
      repeat' (split at h; · cases h)
      cases h
      exact ⟨_, rfl, Rounded.column_frame z.core _ c _ hr⟩

/-- Calls that succeed keep data and statistics in step with the windows. -/
theorem exec_base (z z' : Gen K) (m : Nat) (noise : K) (N : Nat) (M : Option Nat) (st : GSt K) (op : GOp K)
    (hb : Base rnd stat z m noise N M st.s st.q) (h : exec rnd stat conv mem sq z op = .ok z') :
    Base rnd stat z' m noise N M (st.step N M op).s (st.step N M op).q := by
  cases op with
  | series v =>
    obtain ⟨z1, h1, h2, -⟩ := appendSeries_ok (R := fun _ _ _ => True) z m noise N M st v hb
    simp only [exec, h1] at h; cases h; exact h2
  | query v =>
    cases M with
    | none =>
      have := hb.data.query.1
      simp only [exec, appendQuery, this] at h; cases h
    | some M =>
      obtain ⟨z1, h1, h2, -⟩ := appendQuery_ok (R := fun _ _ _ => True) z m noise N M st v hb
      simp only [exec, h1] at h; cases h; exact h2
  | column c =>
    simp only [exec] at h
    cases hcol : calcColumn rnd conv mem.fl sq z c with
    | error e => rw [hcol] at h; cases h
    | ok r =>
      rw [hcol] at h; cases h
      obtain ⟨g', h1, h2⟩ := calcColumn_frame mem.fl z r.1 c r.2 hcol
      rw [h1]
      exact ⟨hb.data.frame h2, hb.noise_eq, hb.sStats, hb.qStats⟩
  | diag d =>
    simp only [exec] at h
    cases hcol : calcDiagonal rnd sq z d with
    | error e => rw [hcol] at h; cases h
    | ok r => rw [hcol] at h; cases h; exact hb

theorem run_base (z z' : Gen K) (m : Nat) (noise : K) (N : Nat) (M : Option Nat) (st : GSt K) (ops : List (GOp K))
    (hb : Base rnd stat z m noise N M st.s st.q) (h : run rnd stat conv mem sq z ops = .ok z') :
    Base rnd stat z' m noise N M (st.run N M ops).s (st.run N M ops).q := by
  induction ops generalizing z st with
  | nil => cases h; exact hb
  | cons op ops ih =>
    simp only [run, bind, Except.bind] at h
    cases he : exec rnd stat conv mem sq z op with
    | error e => rw [he] at h; cases h
    | ok g1 =>
      rw [he] at h
      exact ih g1 (st.step N M op) (exec_base z g1 m noise N M st op hb he) h

/-- Calls covered: valid, safe, and for columns the windows meet `Steps`. -/
def Ok (rnd : K → K) (conv : List (Fl K) → List (Fl K) → Except PyErr (List (Fl K))) (R : K → List K → List K → Prop)
    (P : Nat → K → List K → List K → Prop) (m : Nat) (M : Option Nat) (st : GSt K) (op : GOp K) : Prop :=
  st.Valid m M op ∧ st.Safe op ∧ ∀ c, op = .column c → Steps rnd conv R P m st.s st.q

theorem run_cache (hidem : ∀ x, rnd (rnd x) = rnd x) (hmem : mem.Ok) (z : Gen K) (m : Nat) (noise : K) (N : Nat)
    (M : Option Nat) (st : GSt K) (ops : List (GOp K)) (n : Nat) (hb : Base rnd stat z m noise N M st.s st.q)
    (hc : Rounded.Cache R (fun i => P (min n i)) z.core m N st.s st.q st.last) (hok : st.All N M (Ok rnd conv R P m M) ops) :
    ∃ z', run rnd stat conv mem sq z ops = .ok z' ∧ Base rnd stat z' m noise N M (st.run N M ops).s (st.run N M ops).q ∧
      Rounded.Cache R (fun i => P (min (n + Rounded.columns ops) i)) z'.core m N (st.run N M ops).s (st.run N M ops).q (st.run N M ops).last := by
  induction ops generalizing z st n with
  | nil => exact ⟨z, rfl, hb, hc⟩
  | cons op ops ih =>
    obtain ⟨⟨hv, hsafe, hst⟩, hrest⟩ := hok
    have key : ∃ g1, exec rnd stat conv mem sq z op = .ok g1 ∧
        Rounded.Cache R (fun i => P (min (n + Rounded.columns [op]) i)) g1.core m N (st.step N M op).s (st.step N M op).q (st.step N M op).last := by
      cases op with
      | series v =>
        obtain ⟨z1, h1, -, h2⟩ := appendSeries_ok (R := R) z m noise N M st v hb
        exact ⟨z1, by simp only [exec, h1], h2 _ hc⟩
      | query v =>
        cases M with
        | none => exact absurd rfl hv
        | some M =>
          obtain ⟨z1, h1, -, h2⟩ := appendQuery_ok (R := R) z m noise N M st v hb
          exact ⟨z1, by simp only [exec, h1], h2 _ hc⟩
      | column c =>
        obtain ⟨g', vs, h1, -, h3, -⟩ := calcColumn_ok (sq := sq) hmem z m noise N M st c _ (min (n + 1) ·) (fun i => by simp) hb hc hv hsafe (hst c rfl)
        exact ⟨g', by simp [exec, h1, Except.map], by simpa [Rounded.columns, GSt.step] using h3⟩
      | diag d =>
        obtain ⟨k, -, -, -, h⟩ := calcDiagonal_values (rnd := rnd) (sq := sq) hidem z m noise N M st d hb hv
        refine ⟨z, ?_, by simpa [Rounded.columns, GSt.step] using hc⟩
        rw [exec, h]; rfl
    obtain ⟨g1, h1, h2⟩ := key
    obtain ⟨g2, h3, h4, h5⟩ := ih g1 (st.step N M op) (n + Rounded.columns [op]) (exec_base z g1 m noise N M st op hb h1) h2 hrest
    refine ⟨g2, by simp only [run, h1, bind, Except.bind]; exact h3, h4, ?_⟩
    have : n + Rounded.columns [op] + Rounded.columns ops = n + Rounded.columns (op :: ops) := by cases op <;> simp [Rounded.columns] <;> omega
    rw [this] at h5
    exact h5

theorem prepareStreaming_ok (hmem : mem.Ok) (noise : K) (scale : ℚ) (h1 : 1 ≤ scale) (h2 : scale ≤ 2) (m : Nat) (hm0 : 0 < m) (N : Nat)
    (M : Option Nat) (hm : m ≤ N) (hM : ∀ M', M = some M' → m ≤ M') :
    ∃ z, prepareStreaming mem noise scale m N M = .ok z ∧ Base rnd stat z m noise N M [] [] ∧ z.core.firstRow = none ∧ z.core.prevIdx = none := by
  obtain ⟨ss, s1, s2⟩ := emptyStats_ok (rnd := rnd) (stat := stat) hmem.2.1 hmem.2.2 scale h1 h2 N m hm0 hm
  unfold prepareStreaming
  simp only [s1, bind, Except.bind, pure, Except.pure]
  cases M with
  | none =>
    simp only [emptyQStats]
    exact ⟨_, rfl, ⟨⟨rfl, hm0, hm, RB.mkEmpty_good_scale scale h1 h2 [] N _ (by omega) (hmem.1 _), RB.mkEmpty_items _ _ _, rfl, rfl⟩, rfl, s2, rfl⟩, rfl, rfl⟩
  | some M =>
    have hM := hM M rfl
    obtain ⟨qs, q1, q2⟩ := emptyStats_ok (rnd := rnd) (stat := stat) hmem.2.1 hmem.2.2 scale h1 h2 M m hm0 hM
    simp only [emptyQStats, q1, Except.map]
    exact ⟨_, rfl, ⟨⟨rfl, hm0, hm, RB.mkEmpty_good_scale scale h1 h2 [] N _ (by omega) (hmem.1 _), RB.mkEmpty_items _ _ _, _, rfl,
      RB.mkEmpty_good_scale scale h1 h2 [] M _ (by omega) (hmem.1 _), RB.mkEmpty_items _ _ _⟩, rfl, s2, hM, _, rfl, q2⟩, rfl, rfl⟩

theorem noCache (R : K → List K → List K → Prop) (P : Nat → K → List K → List K → Prop) (g : ColCache K) (m N : Nat) (s q : List K) (h1 : g.firstRow = none) (h2 : g.prevIdx = none) :
    Rounded.Cache R P g m N s q none :=
  ⟨fun fr hfr => (by rw [h1] at hfr; cases hfr), h2⟩

/-- Preparing a generator for finite data succeeds. -/
theorem prepare_ok (hmem : mem.Ok) (noise : K) (m : Nat) (hm0 : 0 < m) (s : List K) (q : Option (List K)) (hm : m ≤ s.length)
    (hq : ∀ q', q = some q' → m ≤ q'.length) :
    ∃ z, prepare rnd stat mem noise m (s.map .fin) (q.map (·.map .fin)) = .ok z ∧ Base rnd stat z m noise s.length (q.map (·.length)) s (q.getD s) ∧
      ∀ R P, Rounded.Cache R P z.core m s.length s (q.getD s) none := by
  have hs0 : s.length ≠ 0 := by omega
  unfold prepare
  cases q with
  | none =>
    obtain ⟨z, h1, h2, h3, h4⟩ := prepareStreaming_ok (rnd := rnd) (stat := stat) hmem noise 1 le_rfl (by norm_num) m hm0 s.length none hm (by simp)
    obtain ⟨z1, h5, h6, -⟩ := appendSeries_ok (R := fun _ _ _ => True) z m noise s.length none ⟨[], [], none⟩ s h2
    simp only [List.length_map, Option.map_none, h1, h5, bind, Except.bind, pure, Except.pure]
    refine ⟨z1, rfl, ?_, fun R P => ?_⟩
    · simpa [GSt.step, hs0, lastN_of_le] using h6
    · obtain ⟨z1', h5', -, h7⟩ := appendSeries_ok (R := R) z m noise s.length none ⟨[], [], none⟩ s h2
      rw [h5] at h5'; cases h5'
      simpa [GSt.step, hs0, lastN_of_le] using h7 P (noCache R P _ m _ _ _ h3 h4)
  | some q =>
    have hq := hq q rfl
    have hq0 : q.length ≠ 0 := by omega
    obtain ⟨z, h1, h2, h3, h4⟩ := prepareStreaming_ok (rnd := rnd) (stat := stat) hmem noise 1 le_rfl (by norm_num) m hm0 s.length (some q.length) hm
      (by intro M' h; cases h; exact hq)
    obtain ⟨z1, h5, h6, -⟩ := appendSeries_ok (R := fun _ _ _ => True) z m noise s.length (some q.length) ⟨[], [], none⟩ s h2
    obtain ⟨z2, h8, h9, -⟩ := appendQuery_ok (R := fun _ _ _ => True) z1 m noise s.length q.length _ q h6
    simp only [List.length_map, Option.map_some, h1, h5, h8, bind, Except.bind]
    refine ⟨z2, rfl, ?_, fun R P => ?_⟩
    · simpa [GSt.step, hs0, hq0, lastN_of_le] using h9
    · obtain ⟨z1', h5', -, h7⟩ := appendSeries_ok (R := R) z m noise s.length (some q.length) ⟨[], [], none⟩ s h2
      rw [h5] at h5'; cases h5'
      obtain ⟨z2', h8', -, h10⟩ := appendQuery_ok (R := R) z1 m noise s.length q.length _ q h6
      rw [h8] at h8'; cases h8'
      simpa [GSt.step, hs0, hq0, lastN_of_le] using h10 P (h7 P (noCache R P _ m _ _ _ h3 h4))

theorem Fresh.base (hmem : mem.Ok) {m : Nat} {noise : K} {z : Gen K} {N : Nat} {M : Option Nat} {st : GSt K} (hm0 : 0 < m)
    (h : Fresh rnd stat mem m noise z N M st) : Base rnd stat z m noise N M st.s st.q ∧ ∀ R P, Rounded.Cache R P z.core m N st.s st.q st.last := by
  cases h with
  | streaming scale N M z h1 h2 hm hM h =>
    obtain ⟨z', a, b, c, d⟩ := prepareStreaming_ok (rnd := rnd) (stat := stat) hmem noise scale h1 h2 m hm0 N M hm hM
    rw [a] at h; cases h
    exact ⟨b, fun R P => noCache R P _ m N _ _ c d⟩
  | batch s q z hm hq h =>
    obtain ⟨z', a, b, c⟩ := prepare_ok (rnd := rnd) (stat := stat) hmem noise m hm0 s q hm hq
    rw [a] at h; cases h
    exact ⟨b, c⟩

/-- A column request after any covered calls. -/
theorem column_after (hidem : ∀ x, rnd (rnd x) = rnd x) (hmem : mem.Ok) (m : Nat) (noise : K) (N : Nat) (M : Option Nat)
    (z0 : Gen K) (st0 : GSt K) (hm : 0 < m) (h0 : Fresh rnd stat mem m noise z0 N M st0) (ops : List (GOp K)) (c : Nat)
    (hok : st0.All N M (Ok rnd conv R P m M) (ops ++ [.column c])) :
    ∃ z z' vs, run rnd stat conv mem sq z0 ops = .ok z ∧ calcColumn rnd conv mem.fl sq z c = .ok (z', vs) ∧
      vs.length = (st0.run N M ops).q.length + 1 - m ∧
      ∀ i, i + m ≤ (st0.run N M ops).q.length → ∃ v, vs[i]? = some (Rounded.fl rnd (Fl.sqrtF sq (colValue rnd stat m noise v
          (((st0.run N M ops).s.drop c).take m) (((st0.run N M ops).q.drop i).take m)))) ∧
        P (min (Rounded.columns ops + 1) i) v (((st0.run N M ops).s.drop c).take m) (((st0.run N M ops).q.drop i).take m) := by
  obtain ⟨ha, hb⟩ := GSt.All.split hok
  obtain ⟨hd, hc⟩ := h0.base hmem hm
  obtain ⟨g, h1, h2, h3⟩ := run_cache (sq := sq) hidem hmem z0 m noise N M st0 ops 0 hd (hc R fun i => P (min 0 i)) ha
  rw [Nat.zero_add] at h3
  obtain ⟨g', vs, h4, -, -, h5, h6⟩ := calcColumn_ok (sq := sq) hmem g m noise N M _ c _ (min (Rounded.columns ops + 1) ·) (fun i => by simp) h2 h3 hb.1.1 hb.1.2.1 (hb.1.2.2 c rfl)
  exact ⟨g, g', vs, h1, h4, h5, h6⟩

end RoundedZ
end Verif
