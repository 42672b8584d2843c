import Verif.Lemmas.Rounding
import Verif.Lemmas.RoundedColumn
import Mathlib.Analysis.SpecialFunctions.Pow.NNReal

/-!
# C81, C82: diagonals of the Euclidean generator in floating point
-/

namespace Verif
open Spec

namespace Rounded
variable {K : Type} [Field K] [LinearOrder K]

/-- One call on finite data in floating point (the outputs are discarded). -/
def exec (rnd : K → K) (dots : Dots K) (mem : Nat → List (Fl K)) (sq : K → K) (g : ColCache K) : GOp K → Except PyErr (ColCache K)
  | .series v => Eucl.appendSeries g (v.map .fin)
  | .query v => Eucl.appendQuery g (v.map .fin)
  | .column c => (calcColumn rnd dots mem sq g c).map Prod.fst
  | .diag d => (calcDiagonal rnd sq g d).map fun _ => g

/-- A sequence of calls; stops at the first one that raises. -/
def run (rnd : K → K) (dots : Dots K) (mem : Nat → List (Fl K)) (sq : K → K) (g : ColCache K) : List (GOp K) → Except PyErr (ColCache K)
  | [] => .ok g
  | op :: ops => do run rnd dots mem sq (← exec rnd dots mem sq g op) ops

variable {rnd : K → K} {dots : Dots K} {mem : Nat → List (Fl K)} {sq : K → K}

/-- Calls that succeed keep the two windows. -/
theorem exec_data (g g' : ColCache K) (m N : Nat) (M : Option Nat) (st : GSt K) (op : GOp K)
    (hd : g.Data m N M st.s st.q) (h : exec rnd dots mem sq g op = .ok g') :
    g'.Data m N M (st.step N M op).s (st.step N M op).q := by
  cases op with
  | series v => exact Eucl.exec_data mem sq g g' m N M st (.series v) hd h
  | query v => exact Eucl.exec_data mem sq g g' m N M st (.query v) hd h
  | column c =>
    simp only [exec, calcColumn, bind, Except.bind, pure, Except.pure] at h
    cases hcol : column rnd mem (sqDist rnd dots) (term rnd) g c with
    | error e => rw [hcol] at h; cases h
    | ok r => rw [hcol] at h; cases h; exact hd.frame (column_frame g r.1 c r.2 hcol)
  | diag d =>
    simp only [exec] at h
    cases hcol : calcDiagonal rnd sq g d with
    | error e => rw [hcol] at h; cases h
    | ok r => rw [hcol] at h; cases h; exact hd

theorem run_data (g g' : ColCache K) (m N : Nat) (M : Option Nat) (st : GSt K) (ops : List (GOp K))
    (hd : g.Data m N M st.s st.q) (h : run rnd dots mem sq g ops = .ok g') : g'.Data m N M (st.run N M ops).s (st.run N M ops).q := by
  induction ops generalizing g st with
  | nil => cases h; exact hd
  | cons op ops ih =>
    simp only [run, bind, Except.bind] at h
    cases he : exec rnd dots mem sq g op with
    | error e => rw [he] at h; cases h
    | ok g1 =>
      rw [he] at h
      exact ih g1 (st.step N M op) (exec_data g g1 m N M st op hd he) h

/-- Sum of the first `k` elements, rounded after each addition. -/
def pre (rnd : K → K) (l : List K) (k : Nat) : K := (l.take k).foldl (fun a b => rnd (a + b)) 0

omit [LinearOrder K] in
theorem pre_zero (l : List K) : pre rnd l 0 = 0 := rfl

omit [LinearOrder K] in
theorem pre_succ (l : List K) (k : Nat) (hk : k < l.length) : pre rnd l (k + 1) = rnd (pre rnd l k + l[k]) := by
  unfold pre
  rw [List.take_succ, List.foldl_append, List.getElem?_eq_getElem hk]
  rfl

theorem scanl_fl (l : List K) (x : K) : (l.map Fl.fin).scanl (add rnd) (.fin x) =
    (List.range (l.length + 1)).map fun k => .fin ((l.take k).foldl (fun a b => rnd (a + b)) x) := by
  induction l generalizing x with
  | nil => rfl
  | cons a l ih =>
    rw [List.map_cons, List.scanl_cons, show add rnd (.fin x) (.fin a) = .fin (rnd (x + a)) by simp [add, fl, Fl.add], ih, List.length_cons,
      List.range_succ_eq_map (n := l.length + 1)]
    simp [Function.comp_def]

theorem cumsum0_ok (l : List K) (n : Nat) (h : l.length = n) (hl : ∀ x ∈ l, rnd x = x) :
    cumsum0 rnd (n : Int) (l.map Fl.fin) = .ok ((List.range (n + 1)).map fun k => .fin (pre rnd l k)) := by
  subst h
  have hz : npZeros (K := K) ((l.length : Int) + 1) = .ok (List.replicate (l.length + 1) (.fin 0)) := by
    unfold npZeros
    rw [if_neg (by omega)]; rfl
  unfold cumsum0
  simp only [hz, bind, Except.bind, List.length_replicate]
  have h1 : pyIdx (l.length + 1) 1 = 1 := by
    rw [show (1 : Int) = ((1 : Nat) : Int) by rfl, pyIdx_nat]; omega
  have h2 : cumsum rnd (l.map Fl.fin) = (List.range l.length).map fun k => .fin (pre rnd l (k + 1)) := by
    cases l with
    | nil => rfl
    | cons a l =>
      rw [List.map_cons, cumsum, scanl_fl, List.length_cons]
      have ha := hl a (by simp)
      simp [pre, ha]
  rw [h1, assignSlice_ok _ _ _ _ (by rw [h2]; simp) (by omega), h2, List.range_succ_eq_map, List.map_cons, List.map_map]
  simp [Function.comp_def, pre_zero]

/-- The squared differences along a diagonal, as calculated. -/
def squares (rnd : K → K) (q s : List K) : List K := List.zipWith (fun a b => rnd (rnd (a - b) * rnd (a - b))) q s

/-- The values `calc_diagonal` computes, for any rounding that keeps floats. -/
theorem calcDiagonal_values (hidem : ∀ x, rnd (rnd x) = rnd x) (g : ColCache K) (m N : Nat) (M : Option Nat) (st : GSt K) (d : Int)
    (hd : g.Data m N M st.s st.q) (hv : st.Valid m M (.diag d)) :
    ∃ n, n = min (st.q.length - (-d).toNat) (st.s.length - d.toNat) ∧ m ≤ n ∧
      diagEntries m st.q.length st.s.length d = n + 1 - m ∧
      calcDiagonal rnd sq g d = .ok ((List.range (diagEntries m st.q.length st.s.length d)).map fun k =>
        fl rnd (Fl.sqrtF sq (.fin (rnd (
          pre rnd (squares rnd ((st.q.drop (-d).toNat).take n) ((st.s.drop d.toNat).take n)) (k + m) -
          pre rnd (squares rnd ((st.q.drop (-d).toNat).take n) ((st.s.drop d.toNat).take n)) k))))) := by
  obtain ⟨v1, v2, v3, v4⟩ := hv
  have hm0 := hd.m_pos
  obtain ⟨n, hn1, hn2, hn3⟩ := diagLength_valid m _ _ d v1 v2 v3 v4
  have hent : diagEntries m st.q.length st.s.length d = n + 1 - m := by rw [diagEntries, hn2]
  refine ⟨n, hn2, hn3, hent, ?_⟩
  set l := squares rnd ((st.q.drop (-d).toNat).take n) ((st.s.drop d.toNat).take n) with hl
  have hlen : l.length = n := by rw [hl, squares]; simp; omega
  have hsq : ((List.zipWith (fun a b : K => rnd (a - b)) ((st.q.drop (-d).toNat).take n) ((st.s.drop d.toNat).take n)).map Fl.fin).map (square rnd) =
      l.map Fl.fin := by
    rw [List.map_map, hl, squares, List.map_zipWith, List.map_zipWith]
    congr 1
  have hrep : ∀ x ∈ l, rnd x = x := by
    intro x hx
    rw [hl, squares, List.mem_iff_getElem] at hx
    obtain ⟨i, hi, rfl⟩ := hx
    rw [List.getElem_zipWith]
    exact hidem _
  have hql : g.q.length = st.q.length := by rw [hd.q_eq, List.length_map]
  have hsl : g.s.length = st.s.length := by rw [hd.s_eq, List.length_map]
  unfold calcDiagonal
  simp only [hql, hsl, hn1, bind, Except.bind, pure, Except.pure,
    g.diagPoints_ok (sub rnd) (fun a b => rnd (a - b)) (fun x y => by simp [sub, fl]) m N M _ _ hd d n hn2, hsq, cumsum0_ok l n hlen hrep,
    List.length_map, List.length_range, hd.m_eq]
  rw [show (((n + 1 : Nat) : Int) - (m : Int)) = ((n + 1 - m : Nat) : Int) by omega, pyTo_nat, pyFrom_nat, npZip_ok _ _ _ (by simp), hent]
  simp only
  congr 1
  apply List.ext_getElem?
  intro k
  by_cases hk : k < n + 1 - m
  · rw [List.getElem?_map, List.getElem?_zipWith, List.getElem?_drop, List.getElem?_take, if_pos hk, List.getElem?_map, List.getElem?_map,
      List.getElem?_map, List.getElem?_range (by omega), List.getElem?_range (by omega), List.getElem?_range hk, Nat.add_comm m k]
    simp [sub, fl]
  · rw [List.getElem?_eq_none (by simp; omega), List.getElem?_eq_none (by simp; omega)]

variable [IsStrictOrderedRing K] {u η : K}

theorem squares_getElem (q s : List K) (i0 j0 n k : Nat) (hk : k < n) (hq : i0 + n ≤ q.length) (hs : j0 + n ≤ s.length)
    (h : k < (squares rnd ((q.drop i0).take n) ((s.drop j0).take n)).length) :
    (squares rnd ((q.drop i0).take n) ((s.drop j0).take n))[k] =
      rnd (rnd (seqOf q (i0 + k) - seqOf s (j0 + k)) * rnd (seqOf q (i0 + k) - seqOf s (j0 + k))) := by
  have h1 : ∀ (l : List K) (i : Nat), i + n ≤ l.length → ((l.drop i).take n)[k]? = some (seqOf l (i + k)) := by
    intro l i hi
    rw [List.getElem?_take, if_pos hk, List.getElem?_drop, seqOf_getElem? l _ (by omega)]
  have : (squares rnd ((q.drop i0).take n) ((s.drop j0).take n))[k]? =
      some (rnd (rnd (seqOf q (i0 + k) - seqOf s (j0 + k)) * rnd (seqOf q (i0 + k) - seqOf s (j0 + k)))) := by
    rw [squares, List.getElem?_zipWith, h1 q i0 hq, h1 s j0 hs]
  rw [List.getElem?_eq_getElem h] at this
  exact Option.some.inj this

theorem seqOf_mem (l : List K) (i : Nat) (h : i < l.length) : seqOf l i ∈ l := by
  have := seqOf_getElem? l i h
  exact List.mem_of_getElem? this

/-- The rounded running sum is close to the exact one and never decreases. -/
theorem pre_close (hr : IsRounding rnd u η) (q s : List K) (i0 j0 n : Nat) (hq : i0 + n ≤ q.length) (hs : j0 + n ≤ s.length)
    (rq : ∀ x ∈ q, rnd x = x) (rs : ∀ x ∈ s, rnd x = x) (k : Nat) (hk : k ≤ n) :
    rnd (pre rnd (squares rnd ((q.drop i0).take n) ((s.drop j0).take n)) k) = pre rnd (squares rnd ((q.drop i0).take n) ((s.drop j0).take n)) k ∧
    Close u η (k + 3) k (sqd k (seqOf s) (seqOf q) i0 j0) (pre rnd (squares rnd ((q.drop i0).take n) ((s.drop j0).take n)) k)
      (sqd k (seqOf s) (seqOf q) i0 j0) ∧
    ∀ j, j ≤ k → pre rnd (squares rnd ((q.drop i0).take n) ((s.drop j0).take n)) j ≤ pre rnd (squares rnd ((q.drop i0).take n) ((s.drop j0).take n)) k := by
  set l := squares rnd ((q.drop i0).take n) ((s.drop j0).take n) with hl
  have hlen : l.length = n := by rw [hl, squares]; simp; omega
  induction k with
  | zero =>
    refine ⟨by rw [pre_zero, hr.zero], ⟨by simp [sqd], by rw [pre_zero]; simp [sqd, roundErr]⟩, ?_⟩
    intro j hj
    rw [Nat.le_zero.mp hj]
  | succ k ih =>
    obtain ⟨h1, h2, h3⟩ := ih (by omega)
    have hel := squares_getElem (rnd := rnd) q s i0 j0 n k (by omega) hq hs (by rw [← hl, hlen]; omega)
    rw [pre_succ l k (by omega)]
    have he : l[k]'(by omega) = rnd (rnd (seqOf q (i0 + k) - seqOf s (j0 + k)) * rnd (seqOf q (i0 + k) - seqOf s (j0 + k))) := hel
    rw [he]
    have hsq := Close.squareDiff hr (seqOf q (i0 + k)) (seqOf s (j0 + k)) (rq _ (seqOf_mem _ _ (by omega))) (rs _ (seqOf_mem _ _ (by omega)))
    refine ⟨hr.idem _, ?_, ?_⟩
    · have hsum : sqd (k + 1) (seqOf s) (seqOf q) i0 j0 =
          sqd k (seqOf s) (seqOf q) i0 j0 + (seqOf q (i0 + k) - seqOf s (j0 + k)) ^ 2 := by
        unfold sqd; rw [Finset.sum_range_succ]; ring
      rw [hsum]
      exact Close.roundAdd hr (h2.add (hsq.mono hr.u_nonneg hr.η_nonneg (by omega) le_rfl le_rfl)) h1 (hr.idem _)
    · intro j hj
      rcases Nat.lt_or_ge j (k + 1) with hlt | hge
      · refine (h3 j (by omega)).trans ?_
        have h4 := hr.mono (le_add_of_nonneg_right (a := pre rnd l k) (hr.nonneg (mul_self_nonneg (rnd (seqOf q (i0 + k) - seqOf s (j0 + k))))))
        rwa [h1] at h4
      · have : j = k + 1 := by omega
        rw [this, pre_succ l k (by omega), he]

/-- What `calc_diagonal` returns in floating point. -/
theorem calcDiagonal_ok (hr : IsRounding rnd u η) (g : ColCache K) (m N : Nat) (M : Option Nat) (st : GSt K) (d : Int)
    (hd : g.Data m N M st.s st.q) (hv : st.Valid m M (.diag d)) (rq : ∀ x ∈ st.q, rnd x = x) (rs : ∀ x ∈ st.s, rnd x = x) :
    ∃ vs, calcDiagonal rnd sq g d = .ok vs ∧ vs.length = diagEntries m st.q.length st.s.length d ∧
      ∀ k, k < diagEntries m st.q.length st.s.length d → ∃ v, 0 ≤ v ∧ vs[k]? = some (.fin (rnd (sq v))) ∧
        |v - sqd m (seqOf st.s) (seqOf st.q) ((-d).toNat + k) (d.toNat + k)| ≤ roundErr u η (k + m + 4) (k + m + k)
          (sqd (k + m) (seqOf st.s) (seqOf st.q) (-d).toNat d.toNat + sqd k (seqOf st.s) (seqOf st.q) (-d).toNat d.toNat) := by
  obtain ⟨n, hn, hmn, hent, hval⟩ := calcDiagonal_values (rnd := rnd) (sq := sq) hr.idem g m N M st d hd hv
  obtain ⟨v1, v2, v3, v4⟩ := hv
  refine ⟨_, hval, by simp, ?_⟩
  intro k hk
  have hq : (-d).toNat + n ≤ st.q.length := by omega
  have hs : d.toNat + n ≤ st.s.length := by omega
  obtain ⟨a1, a2, a3⟩ := pre_close hr st.q st.s (-d).toNat d.toNat n hq hs rq rs (k + m) (by omega)
  obtain ⟨b1, b2, -⟩ := pre_close hr st.q st.s (-d).toNat d.toNat n hq hs rq rs k (by omega)
  have hnn : 0 ≤ rnd (pre rnd (squares rnd ((st.q.drop (-d).toNat).take n) ((st.s.drop d.toNat).take n)) (k + m) -
          pre rnd (squares rnd ((st.q.drop (-d).toNat).take n) ((st.s.drop d.toNat).take n)) k) :=
    hr.nonneg (sub_nonneg.2 (a3 k (by omega)))
  refine ⟨_, hnn, ?_, ?_⟩
  · rw [List.getElem?_map, List.getElem?_range hk, Option.map_some, Fl.sqrtF_fin _ _ hnn]; rfl
  · have hc := Close.roundSub hr (a2.sub (b2.mono hr.u_nonneg hr.η_nonneg (k' := k + m + 3) (by omega) le_rfl le_rfl)) a1 b1
    have hsum : sqd (k + m) (seqOf st.s) (seqOf st.q) (-d).toNat d.toNat - sqd k (seqOf st.s) (seqOf st.q) (-d).toNat d.toNat =
        sqd m (seqOf st.s) (seqOf st.q) ((-d).toNat + k) (d.toNat + k) := by
      unfold sqd
      rw [Finset.sum_range_add, add_sub_cancel_left]
      exact Finset.sum_congr rfl fun x _ => by rw [Nat.add_assoc, Nat.add_assoc]
    rw [hsum] at hc
    exact hc.err

end Rounded
end Verif

namespace Verif
open Spec

/-- **C81**: in floating point arithmetic without overflow (any rounding function as described by `IsRounding`, in particular
`float64`), whatever calls a batch or streaming Euclidean generator has answered, `calc_diagonal(d)` on windows of floats returns
one number per pair on diagonal `d`: the rounded square root of a number `v ≥ 0`, so never NaN, and `v` differs from the exact
squared distance of the pair by at most the error of `k + m + 4` roundings of the squared differences between the *start of the
diagonal* and the end of the pair. -/
theorem C81_diagonal {K : Type} [Field K] [LinearOrder K] [IsStrictOrderedRing K] (rnd : K → K) (u η : K) (hr : IsRounding rnd u η)
    (dots : Rounded.Dots K) (mem : Nat → List (Fl K)) (hmem : ∀ n, (mem n).length = n) (sq : K → K) (m N : Nat) (M : Option Nat)
    (g0 g : ColCache K) (st0 : GSt K) (hm : 0 < m) (h0 : Eucl.Fresh mem m g0 N M st0) (ops : List (GOp K))
    (hrun : Rounded.run rnd dots mem sq g0 ops = .ok g) (d : Int) (hd : (st0.run N M ops).Valid m M (.diag d))
    (hs : ∀ x ∈ (st0.run N M ops).s, rnd x = x) (hq : ∀ x ∈ (st0.run N M ops).q, rnd x = x) :
    ∃ (s q : List K) (vs : List (Fl K)), s = (st0.run N M ops).s ∧ q = (st0.run N M ops).q ∧
      Rounded.calcDiagonal rnd sq g d = .ok vs ∧ vs.length = diagEntries m q.length s.length d ∧
      ∀ k, k < diagEntries m q.length s.length d → ∃ v, 0 ≤ v ∧ vs[k]? = some (.fin (rnd (sq v))) ∧
        |v - sqd m (seqOf s) (seqOf q) ((-d).toNat + k) (d.toNat + k)| ≤ roundErr u η (k + m + 4) (k + m + k)
          (sqd (k + m) (seqOf s) (seqOf q) (-d).toNat d.toNat + sqd k (seqOf s) (seqOf q) (-d).toNat d.toNat) := by
  obtain ⟨vs, h1, h2, h3⟩ := Rounded.calcDiagonal_ok (sq := sq) hr g m N M _ d
    (Rounded.run_data g0 g m N M st0 ops (h0.data hmem hm).1 hrun) hd hq hs
  exact ⟨_, _, vs, rfl, rfl, h1, h2, h3⟩

theorem abs_sqrt_sub_sqrt_le (a b : ℝ) (ha : 0 ≤ a) (hb : 0 ≤ b) : |√a - √b| ≤ √|a - b| := by
  apply Real.le_sqrt_of_sq_le
  rw [sq_abs]
  have h1 := Real.sq_sqrt ha
  have h2 := Real.sq_sqrt hb
  have h3 := Real.sqrt_nonneg a
  have h4 := Real.sqrt_nonneg b
  rcases le_total a b with h | h
  · have : √a ≤ √b := Real.sqrt_le_sqrt h
    rw [abs_of_nonpos (by linarith)]
    nlinarith
  · have : √b ≤ √a := Real.sqrt_le_sqrt h
    rw [abs_of_nonneg (by linarith)]
    nlinarith

/-- The rounded square root of a number close to `d` is close to the square root of `d`. -/
theorem sqrt_close {rnd : ℝ → ℝ} {u η : ℝ} (hr : IsRounding rnd u η) (v d B : ℝ) (hv : 0 ≤ v) (hd : 0 ≤ d) (h : |v - d| ≤ B) :
    |rnd (√v) - √d| ≤ (1 + u) * √B + u * √d + η := by
  have h1 := hr.err (√v)
  have h2 := abs_sqrt_sub_sqrt_le v d hv hd
  have h3 : √|v - d| ≤ √B := Real.sqrt_le_sqrt h
  have hu := hr.u_nonneg
  rw [abs_of_nonneg (Real.sqrt_nonneg v)] at h1
  have h4 : √v ≤ √d + √B := by
    have := (abs_le.1 (h2.trans h3)).2
    linarith
  have h5 : |rnd (√v) - √d| ≤ |rnd (√v) - √v| + |√v - √d| := by
    have := abs_add_le (rnd (√v) - √v) (√v - √d)
    rwa [sub_add_sub_cancel] at this
  have h6 : u * √v ≤ u * (√d + √B) := mul_le_mul_of_nonneg_left h4 hu
  linarith

/-- **C81** for distances: every value is a number, not negative, and within an explicit bound of the Euclidean distance. -/
theorem C81_distances (rnd : ℝ → ℝ) (u η : ℝ) (hr : IsRounding rnd u η) (dots : Rounded.Dots ℝ) (mem : Nat → List (Fl ℝ))
    (hmem : ∀ n, (mem n).length = n) (m N : Nat) (M : Option Nat) (g0 g : ColCache ℝ) (st0 : GSt ℝ) (hm : 0 < m)
    (h0 : Eucl.Fresh mem m g0 N M st0) (ops : List (GOp ℝ)) (hrun : Rounded.run rnd dots mem Real.sqrt g0 ops = .ok g) (d : Int)
    (hd : (st0.run N M ops).Valid m M (.diag d)) (hs : ∀ x ∈ (st0.run N M ops).s, rnd x = x) (hq : ∀ x ∈ (st0.run N M ops).q, rnd x = x) :
    ∃ (s q : List ℝ) (vs : List (Fl ℝ)), s = (st0.run N M ops).s ∧ q = (st0.run N M ops).q ∧
      Rounded.calcDiagonal rnd Real.sqrt g d = .ok vs ∧ vs.length = diagEntries m q.length s.length d ∧
      ∀ k, k < diagEntries m q.length s.length d → ∃ y, vs[k]? = some (.fin y) ∧ 0 ≤ y ∧
        |y - √(sqd m (seqOf s) (seqOf q) ((-d).toNat + k) (d.toNat + k))| ≤
          (1 + u) * √(roundErr u η (k + m + 4) (k + m + k)
            (sqd (k + m) (seqOf s) (seqOf q) (-d).toNat d.toNat + sqd k (seqOf s) (seqOf q) (-d).toNat d.toNat)) +
          u * √(sqd m (seqOf s) (seqOf q) ((-d).toNat + k) (d.toNat + k)) + η := by
  obtain ⟨s, q, vs, rfl, rfl, h1, h2, h3⟩ := C81_diagonal rnd u η hr dots mem hmem Real.sqrt m N M g0 g st0 hm h0 ops hrun d hd hs hq
  refine ⟨_, _, vs, rfl, rfl, h1, h2, fun k hk => ?_⟩
  obtain ⟨v, v1, v2, v3⟩ := h3 k hk
  exact ⟨_, v2, hr.nonneg (Real.sqrt_nonneg v), sqrt_close hr v _ _ v1 (Eucl.sqd_nonneg _ _ _ _ _) v3⟩

/-- The bound for `float64`, the last of 1000 pairs of subsequences of length 100 if the squared differences average 4. -/
example : roundErr (2 ^ (-53 : ℤ) : ℚ) (2 ^ (-1075 : ℤ)) (999 + 100 + 4) (999 + 100 + 999) (4 * 1099 + 4 * 999) ≤ 1 / 10 ^ 8 := by
  unfold roundErr; decide +kernel

/-- The series 0.1, 0.7, 0.3 (nearest floats) and the query 0.2, 0.5, subsequences of length 2. -/
def tenths : Except PyErr (ColCache ℚ) :=
  Eucl.prepare zeroMem 2 ([1 / 10, 7 / 10, 3 / 10].map fun x => .fin (b64 x)) (some ([1 / 5, 1 / 2].map fun x => .fin (b64 x)))

/-- `float64` rounds these distances: the squares are not those of exact arithmetic (compared with the same data). -/
example : (tenths.bind fun g => Rounded.calcDiagonal b64 (fun x => x) g 0) ≠ (tenths.bind fun g => Eucl.calcDiagonal (fun x => x) g 0) := by
  decide +kernel

end Verif
