import Verif.Lemmas.RoundedRuns

/-!
# C82: columns of the Euclidean generator in floating point
-/

namespace Verif
open Spec

namespace Rounded
variable {K : Type} [Field K] [LinearOrder K] [IsStrictOrderedRing K] {rnd : K → K} {u η : K}

/-- Floats of limited size. -/
def Bounded (rnd : K → K) (L : K) (l : List K) : Prop := ∀ x ∈ l, rnd x = x ∧ |x| ≤ L

theorem Bounded.zip {L : K} {w x : List K} (hw : Bounded rnd L w) (hx : Bounded rnd L x) : ∀ p ∈ w.zip x, |p.1| ≤ L ∧ |p.2| ≤ L := by
  intro p hp
  exact ⟨(hw _ (List.of_mem_zip hp).1).2, (hx _ (List.of_mem_zip hp).2).2⟩

/-- A dot product of bounded floats. -/
theorem dot_close (hr : IsRounding rnd u η) {L : K} {w x : List K} {m : Nat} (hm : w.length = m) (hm' : x.length = m) (hw : Bounded rnd L w)
    (hx : Bounded rnd L x) {v : K} (h : DotEval rnd (w.zip x) v) : Close u η m m (m * L ^ 2) v (List.zipWith (· * ·) w x).sum := by
  have hl : (w.zip x).length = m := by rw [List.length_zip, hm, hm', Nat.min_self]
  obtain ⟨-, hc⟩ := h.close hr
  have hle := absDot_le (w.zip x) L (hw.zip hx)
  rw [hl] at hc hle
  have := hc.mono hr.u_nonneg hr.η_nonneg le_rfl le_rfl hle
  rwa [show ((w.zip x).map fun p => p.1 * p.2) = List.zipWith (· * ·) w x by rw [List.zip, List.map_zipWith]] at this

theorem pairSum_diff_nonneg (w x : List K) : 0 ≤ pairSum (fun a b : K => (a - b) ^ 2) w x := by
  unfold pairSum
  apply List.sum_nonneg
  intro y hy
  rw [List.mem_iff_getElem] at hy
  obtain ⟨i, hi, rfl⟩ := hy
  rw [List.getElem_zipWith]
  exact sq_nonneg _

/-- A fully calculated squared distance. -/
theorem expand_close (hr : IsRounding rnd u η) {L : K} {w x : List K} {m : Nat} (hm : w.length = m) (hm' : x.length = m) (hw : Bounded rnd L w)
    (hx : Bounded rnd L x) {a b c : K} (ha : DotEval rnd (w.zip w) a) (hb : DotEval rnd (w.zip x) b) (hc : DotEval rnd (x.zip x) c) :
    |expand rnd a b c - pairSum (fun a b => (a - b) ^ 2) w x| ≤ fullErr u η (rnd Eucl.eps) m L ∧ rnd (expand rnd a b c) = expand rnd a b c := by
  have hu := hr.u_nonneg
  have hη := hr.η_nonneg
  have ca := dot_close hr hm hm hw hw ha
  have cb := dot_close hr hm hm' hw hx hb
  have cc := dot_close hr hm' hm' hx hx hc
  have c1 := cb.two.round hr
  have c2 := Close.roundSub hr ((ca.mono hu hη (Nat.le_succ m) le_rfl le_rfl).sub c1) (ha.repr hr) (hr.idem _)
  have c3 := Close.roundAdd hr (c2.add (cc.mono hu hη (by omega : m ≤ m + 1 + 1) le_rfl le_rfl)) (hr.idem _) (hc.repr hr)
  have hS : (List.zipWith (· * ·) w w).sum - 2 * (List.zipWith (· * ·) w x).sum + (List.zipWith (· * ·) x x).sum =
      pairSum (fun a b => (a - b) ^ 2) w x := Eucl.sq_expand w x (by rw [hm, hm'])
  rw [hS] at c3
  have herr := c3.err
  rw [show m + 1 + 1 + 1 = m + 3 by omega, show m + (2 * m + 1) + m = 4 * m + 1 by omega,
    show (m : K) * L ^ 2 + 2 * (m * L ^ 2) + m * L ^ 2 = 4 * m * L ^ 2 by ring] at herr
  have heps : 0 ≤ rnd (Eucl.eps : K) := hr.nonneg (by unfold Eucl.eps; positivity)
  have hnn := pairSum_diff_nonneg w x
  unfold expand
  simp only
  split
  · rename_i hlt
    refine ⟨?_, hr.zero⟩
    rw [zero_sub, abs_neg, abs_of_nonneg hnn]
    have := (abs_le.1 herr).1
    unfold fullErr
    linarith
  · refine ⟨?_, hr.idem _⟩
    unfold fullErr
    linarith

theorem diff_bound {L x y : K} (hx : |x| ≤ L) (hy : |y| ≤ L) : (x - y) ^ 2 ≤ 4 * L ^ 2 := by
  have h1 : |x - y| ≤ 2 * L := (abs_sub x y).trans (by linarith)
  rw [← sq_abs]
  have := pow_le_pow_left₀ (abs_nonneg _) h1 2
  linarith

theorem sqd_bound (m : Nat) (s q : List K) (i j : Nat) (L : K) (hs : Bounded rnd L s) (hq : Bounded rnd L q) (hi : i + m ≤ q.length)
    (hj : j + m ≤ s.length) : sqd m (seqOf s) (seqOf q) i j ≤ m * (4 * L ^ 2) := by
  unfold sqd
  have := Finset.sum_le_card_nsmul (Finset.range m) (fun k => (seqOf s (j + k) - seqOf q (i + k)) ^ 2) (4 * L ^ 2) (by
    intro k hk
    have := Finset.mem_range.1 hk
    exact diff_bound (hs _ (seqOf_mem _ _ (by omega))).2 (hq _ (seqOf_mem _ _ (by omega))).2)
  rwa [Finset.card_range, nsmul_eq_mul] at this

/-- Moving both windows by one. -/
theorem sqd_step (m : Nat) (s q : Nat → K) (i j : Nat) :
    sqd m s q (i + 1) (j + 1) = sqd m s q i j - (s j - q i) ^ 2 + (s (j + m) - q (i + m)) ^ 2 := by
  unfold sqd
  have h1 := Finset.sum_range_succ (fun k => (s (j + k) - q (i + k)) ^ 2) m
  have h2 := Finset.sum_range_succ' (fun k => (s (j + k) - q (i + k)) ^ 2) m
  have h3 : ∑ k ∈ Finset.range m, (s (j + 1 + k) - q (i + 1 + k)) ^ 2 = ∑ k ∈ Finset.range m, (s (j + (k + 1)) - q (i + (k + 1))) ^ 2 :=
    Finset.sum_congr rfl fun k _ => by rw [show j + 1 + k = j + (k + 1) by omega, show i + 1 + k = i + (k + 1) by omega]
  simp only [Nat.add_zero] at h2
  rw [h3]
  linarith

theorem sqd_first_le (m : Nat) (hm : 0 < m) (s q : Nat → K) (i j : Nat) : (s j - q i) ^ 2 ≤ sqd m s q i j := by
  unfold sqd
  have := Finset.single_le_sum (f := fun k => (s (j + k) - q (i + k)) ^ 2) (fun k _ => sq_nonneg _) (Finset.mem_range.2 hm)
  simpa using this

theorem fullErr_nonneg (hr : IsRounding rnd u η) (m : Nat) (L : K) : 0 ≤ fullErr u η (rnd Eucl.eps) m L := by
  unfold fullErr
  have heps : 0 ≤ rnd (Eucl.eps : K) := hr.nonneg (by unfold Eucl.eps; positivity)
  have := roundErr_nonneg hr.u_nonneg hr.η_nonneg (by positivity : (0 : K) ≤ 4 * m * L ^ 2) (m + 3) (4 * m + 1)
  linarith

theorem updateErr_nonneg (hr : IsRounding rnd u η) (m : Nat) (L : K) : 0 ≤ updateErr u η m L := by
  unfold updateErr
  have hu := hr.u_nonneg
  have := roundErr_nonneg hr.u_nonneg hr.η_nonneg (by positivity : (0 : K) ≤ 4 * L ^ 2) 3 1
  positivity

theorem fullErr_le (hr : IsRounding rnd u η) (m : Nat) (L : K) (n : Nat) : fullErr u η (rnd Eucl.eps) m L ≤ columnErr u η (rnd Eucl.eps) m L n := by
  unfold columnErr
  have h1 : 1 ≤ (1 + u) ^ (2 * n) := one_le_pow₀ (by linarith [hr.u_nonneg])
  have h2 := fullErr_nonneg hr m L
  have h3 : (0 : K) ≤ n * updateErr u η m L := mul_nonneg (Nat.cast_nonneg n) (updateErr_nonneg hr m L)
  nlinarith

/-- Deriving a value from the one diagonally before it. -/
theorem update_close (hr : IsRounding rnd u η) (L A : K) (m : Nat) (hA : A = 4 * m * L ^ 2) (v d d' x y x' y' e : K) (hv : rnd v = v)
    (h : |v - d| ≤ e) (hx : rnd x = x ∧ |x| ≤ L) (hy : rnd y = y ∧ |y| ≤ L) (hx' : rnd x' = x' ∧ |x'| ≤ L) (hy' : rnd y' = y' ∧ |y'| ≤ L)
    (hd : d' = d - (x - y) ^ 2 + (x' - y') ^ 2) (h1 : (x - y) ^ 2 ≤ d) (h2 : d ≤ A) (h3 : d' ≤ A) :
    |rnd (rnd (v - diff2 rnd x y) + diff2 rnd x' y') - d'| ≤ (1 + u) ^ 2 * e + updateErr u η m L := by
  have hu := hr.u_nonneg
  have hη := hr.η_nonneg
  have cf : |diff2 rnd x y - (x - y) ^ 2| ≤ roundErr u η 3 1 (4 * L ^ 2) :=
    ((Close.squareDiff hr x y hx.1 hy.1).mono hu hη le_rfl le_rfl (diff_bound hx.2 hy.2)).err
  have cf' : |diff2 rnd x' y' - (x' - y') ^ 2| ≤ roundErr u η 3 1 (4 * L ^ 2) :=
    ((Close.squareDiff hr x' y' hx'.1 hy'.1).mono hu hη le_rfl le_rfl (diff_bound hx'.2 hy'.2)).err
  unfold updateErr
  rw [← hA]
  set fe := roundErr u η 3 1 (4 * L ^ 2)
  have hf : rnd (diff2 rnd x y) = diff2 rnd x y := hr.idem _
  have hf' : rnd (diff2 rnd x' y') = diff2 rnd x' y' := hr.idem _
  set f := diff2 rnd x y
  set f' := diff2 rnd x' y'
  set F := (x - y) ^ 2
  set F' := (x' - y') ^ 2
  have hF' : 0 ≤ F' := sq_nonneg _
  have a1 : |v - f - (d - F)| ≤ e + fe := by
    rw [show v - f - (d - F) = (v - d) - (f - F) by ring]
    exact (abs_sub _ _).trans (add_le_add h cf)
  have hF : 0 ≤ F := sq_nonneg _
  have a2 : |v - f| ≤ A + (e + fe) := by
    have := abs_add_le (v - f - (d - F)) (d - F)
    rw [sub_add_cancel] at this
    have h4 : |d - F| ≤ A := by rw [abs_of_nonneg (by linarith)]; linarith
    linarith
  have a3 := hr.sub v f hv hf
  have a4 : |rnd (v - f) - (d - F)| ≤ (1 + u) * (e + fe) + u * A := by
    have := abs_add_le (rnd (v - f) - (v - f)) (v - f - (d - F))
    rw [sub_add_sub_cancel] at this
    have := mul_le_mul_of_nonneg_left a2 hu
    linarith
  set w := rnd (v - f) with hw
  have a5 : |w + f' - d'| ≤ (1 + u) * (e + fe) + u * A + fe := by
    rw [show w + f' - d' = (w - (d - F)) + (f' - F') by rw [hd]; ring]
    exact (abs_add_le _ _).trans (add_le_add a4 cf')
  have a6 : |w + f'| ≤ A + ((1 + u) * (e + fe) + u * A + fe) := by
    have := abs_add_le (w + f' - d') d'
    rw [sub_add_cancel] at this
    have h4 : |d'| ≤ A := by rw [abs_of_nonneg (by rw [hd]; linarith)]; exact h3
    linarith
  have a7 := hr.add w f' (hr.idem _) hf'
  have a8 := abs_add_le (rnd (w + f') - (w + f')) (w + f' - d')
  rw [sub_add_sub_cancel] at a8
  have a9 := mul_le_mul_of_nonneg_left a6 hu
  have : u * (A + ((1 + u) * (e + fe) + u * A + fe)) + ((1 + u) * (e + fe) + u * A + fe) =
      (1 + u) ^ 2 * e + (((1 + u) ^ 2 + (1 + u)) * fe + (2 + u) * u * A) := by ring
  linarith

/-- Bounded floats meet the requirements of the columns. -/
theorem bounded_steps (hr : IsRounding rnd u η) (m : Nat) (hm : 0 < m) (s q : List K) (L : K) (hs : Bounded rnd L s) (hq : Bounded rnd L q)
    (hmq : m ≤ q.length) :
    Steps rnd (fun v w x => |v - pairSum (fun a b => (a - b) ^ 2) w x| ≤ fullErr u η (rnd Eucl.eps) m L ∧ rnd v = v)
      (fun n v w x => |v - pairSum (fun a b => (a - b) ^ 2) w x| ≤ columnErr u η (rnd Eucl.eps) m L n ∧ rnd v = v) m s q := by
  have hqt : Bounded rnd L (q.take m) := fun x hx => hq x (List.mem_of_mem_take hx)
  have hst : ∀ j, Bounded rnd L ((s.drop j).take m) := fun j x hx => hs x (List.mem_of_mem_drop (List.mem_of_mem_take hx))
  refine ⟨?_, ?_, ?_, ?_, ?_⟩
  · intro win hwl hwin a b c ha hb hc
    exact expand_close hr hwl (by rw [List.length_take]; omega) (fun x hx => hs x (hwin x hx)) hqt ha hb hc
  · intro j hj win hwin a b c ha hb hc
    refine expand_close hr (mem_windows_length hwin) (by rw [List.length_take, List.length_drop]; omega) ?_ (hst j) ha hb hc
    intro x hx
    obtain ⟨i, -, rfl⟩ := List.mem_map.1 hwin
    exact hq x (List.mem_of_mem_drop (List.mem_of_mem_take hx))
  · intro n j i v hj hi h
    rw [pairSum_comm _ (fun a b => by ring)] at h
    exact ⟨h.1.trans (fullErr_le hr m L n), h.2⟩
  · intro n j v hj h
    exact ⟨h.1.trans (fullErr_le hr m L n), h.2⟩
  · intro n j i v hj hi h
    rw [Eucl.pair_sqd m s q i j (by omega) (by omega)] at h
    rw [Eucl.pair_sqd m s q (i + 1) (j + 1) (by omega) (by omega)]
    refine ⟨?_, hr.idem _⟩
    have hup := update_close hr L _ m rfl v _ _ (seqOf s j) (seqOf q i) (seqOf s (j + m)) (seqOf q (i + m)) _ h.2 h.1
      (hs _ (seqOf_mem _ _ (by omega))) (hq _ (seqOf_mem _ _ (by omega))) (hs _ (seqOf_mem _ _ (by omega))) (hq _ (seqOf_mem _ _ (by omega)))
      (sqd_step m (seqOf s) (seqOf q) i j) (sqd_first_le m hm _ _ i j)
      ((sqd_bound m s q i j L hs hq (by omega) (by omega)).trans (le_of_eq (by ring)))
      ((sqd_bound m s q (i + 1) (j + 1) L hs hq (by omega) (by omega)).trans (le_of_eq (by ring)))
    refine hup.trans ?_
    unfold columnErr
    have h1 : 1 ≤ (1 + u) ^ (2 * (n + 1)) := one_le_pow₀ (by linarith [hr.u_nonneg])
    have h2 := updateErr_nonneg hr m L
    have h3 : (1 + u) ^ 2 * ((1 + u) ^ (2 * n) * (fullErr u η (rnd Eucl.eps) m L + n * updateErr u η m L)) =
        (1 + u) ^ (2 * (n + 1)) * (fullErr u η (rnd Eucl.eps) m L + n * updateErr u η m L) := by
      rw [← mul_assoc, ← pow_add]; congr 2; ring
    rw [h3]
    push_cast
    nlinarith

end Rounded

/-- **C82** (partial): in floating point arithmetic without overflow, for windows of floats of absolute value at most `L`: whatever
calls were made (valid and `Safe`), `calc_column(c)` returns one value per query subsequence, the rounded square root of a
number `v` (NaN if `v < 0`), and `v` differs from the exact squared distance of the pair by at most `columnErr`, which grows with the
number of columns calculated before, up to the number of the row. Missing: the value can be NaN (`C82_nan_wrong`), but only for pairs closer than this bound
(`C82_number_partial`). -/
theorem C82_column_partial {K : Type} [Field K] [LinearOrder K] [IsStrictOrderedRing K] (rnd : K → K) (u η : K) (hr : IsRounding rnd u η)
    (dots : Rounded.Dots K) (hdots : dots.Ok rnd) (mem : Nat → List (Fl K)) (hmem : ∀ n, (mem n).length = n) (sq : K → K) (m N : Nat)
    (M : Option Nat) (g0 : ColCache K) (st0 : GSt K) (hm : 0 < m) (h0 : Eucl.Fresh mem m g0 N M st0) (ops : List (GOp K)) (c : Nat) (L : K)
    (hok : st0.All N M (fun st op => st.Valid m M op ∧ st.Safe op ∧ ∀ x ∈ st.s ++ st.q, rnd x = x ∧ |x| ≤ L) (ops ++ [.column c])) :
    ∃ g g' vs s q, s = (st0.run N M ops).s ∧ q = (st0.run N M ops).q ∧
      Rounded.run rnd dots mem sq g0 ops = .ok g ∧ Rounded.calcColumn rnd dots mem sq g c = .ok (g', vs) ∧ vs.length = q.length + 1 - m ∧
      ∀ i, i + m ≤ q.length → ∃ v, vs[i]? = some (if v < 0 then .nan else .fin (rnd (sq v))) ∧
        |v - sqd m (seqOf s) (seqOf q) i c| ≤ columnErr u η (rnd (1 / 10 ^ 15)) m L (min (Rounded.columns ops + 1) i) := by
  have hc := (GSt.All.split hok).2.1.1
  obtain ⟨g, g', vs, h1, h2, h3, h4⟩ := Rounded.column_after (sq := sq) hr.idem hmem hdots m N M g0 st0 hm h0 ops c
    (Eucl.GSt.All.mono (fun st op h => ⟨h.1, h.2.1, fun c' hc' => Rounded.bounded_steps hr m hm st.s st.q L
      (fun x hx => h.2.2 x (List.mem_append_left _ hx)) (fun x hx => h.2.2 x (List.mem_append_right _ hx)) (by
        have := h.1; rw [hc'] at this; exact this.2)⟩) st0 _ hok)
  refine ⟨g, g', vs, _, _, rfl, rfl, h1, h2, h3, fun i hi => ?_⟩
  obtain ⟨v, h5, h6, -⟩ := h4 i hi
  rw [Eucl.pair_sqd m _ _ i c hc.1 hi] at h6
  refine ⟨v, ?_, h6⟩
  rw [h5]
  simp only [Fl.sqrtF]
  split <;> rfl

/-- **C82** (partial), for distances: a value is NaN only if the exact squared distance of the pair is at most the error bound;
otherwise it is a number within an explicit bound of the Euclidean distance. -/
theorem C82_number_partial (rnd : ℝ → ℝ) (u η : ℝ) (hr : IsRounding rnd u η) (dots : Rounded.Dots ℝ) (hdots : dots.Ok rnd)
    (mem : Nat → List (Fl ℝ)) (hmem : ∀ n, (mem n).length = n) (m N : Nat) (M : Option Nat) (g0 : ColCache ℝ) (st0 : GSt ℝ) (hm : 0 < m)
    (h0 : Eucl.Fresh mem m g0 N M st0) (ops : List (GOp ℝ)) (c : Nat) (L : ℝ) (B : Nat → ℝ)
    (hok : st0.All N M (fun st op => st.Valid m M op ∧ st.Safe op ∧ ∀ x ∈ st.s ++ st.q, rnd x = x ∧ |x| ≤ L) (ops ++ [.column c]))
    (hB : ∀ i, B i = columnErr u η (rnd (1 / 10 ^ 15)) m L (min (Rounded.columns ops + 1) i)) :
    ∃ g g' vs s q, s = (st0.run N M ops).s ∧ q = (st0.run N M ops).q ∧ Rounded.run rnd dots mem Real.sqrt g0 ops = .ok g ∧
      Rounded.calcColumn rnd dots mem Real.sqrt g c = .ok (g', vs) ∧ vs.length = q.length + 1 - m ∧
      ∀ i, i + m ≤ q.length →
        (vs[i]? = some .nan ∧ sqd m (seqOf s) (seqOf q) i c < B i) ∨
        ∃ y, vs[i]? = some (.fin y) ∧ 0 ≤ y ∧ |y - √(sqd m (seqOf s) (seqOf q) i c)| ≤ (1 + u) * √(B i) + u * √(sqd m (seqOf s) (seqOf q) i c) + η := by
  obtain ⟨g, g', vs, s, q, hs, hq, h1, h2, h3, h4⟩ := C82_column_partial rnd u η hr dots hdots mem hmem Real.sqrt m N M g0 st0 hm h0 ops c L hok
  refine ⟨g, g', vs, s, q, hs, hq, h1, h2, h3, fun i hi => ?_⟩
  obtain ⟨v, h5, h6⟩ := h4 i hi
  rw [← hB] at h6
  by_cases hv : v < 0
  · left
    rw [if_pos hv] at h5
    exact ⟨h5, by have := (abs_le.1 h6).1; linarith⟩
  · right
    rw [if_neg hv] at h5
    rw [not_lt] at hv
    exact ⟨_, h5, hr.nonneg (Real.sqrt_nonneg v), sqrt_close hr v _ _ hv (Eucl.sqd_nonneg _ _ _ _ _) h6⟩

/-- The bound for `float64`, values up to 10, subsequences of length 100, the 10000th column. -/
example : columnErr (2 ^ (-53 : ℤ) : ℚ) (2 ^ (-1075 : ℤ)) (b64 (1 / 10 ^ 15)) 100 10 10000 ≤ 1 / 10 ^ 6 := by
  unfold columnErr fullErr updateErr roundErr; decide +kernel

/-- The bound is met by a run of several calls, with `np.einsum` and `np.dot` adding from the left. -/
example : ∃ (g0 : ColCache ℚ) (st0 : GSt ℚ), Eucl.Fresh zeroMem 2 g0 6 (some 3) st0 ∧ (Rounded.Dots.left b64).Ok (b64 (K := ℚ)) ∧
    st0.All 6 (some 3) (fun st op => st.Valid 2 (some 3) op ∧ st.Safe op ∧ ∀ x ∈ st.s ++ st.q, b64 x = x ∧ |x| ≤ 3)
      ([.query [1, 2, 3], .series [1, 3 / 2, 0], .column 0, .diag 0, .column 1, .series [5 / 4]] ++ [.column 2]) := by
  refine ⟨_, _, Eucl.Fresh.streaming 1 6 (some 3) le_rfl (by norm_num) (by norm_num) (by simp), Rounded.left_ok _, ?_⟩
  simp only [GSt.All, List.cons_append, List.nil_append, GSt.step, GSt.Valid, GSt.Safe, lastN, List.length_cons, List.length_nil]
  have hb : ∀ x ∈ ([0, 1, 2, 3, 3 / 2, 5 / 4] : List ℚ), b64 x = x ∧ |x| ≤ 3 := by decide +kernel
  have key : ∀ l : List ℚ, (∀ x ∈ l, x ∈ ([0, 1, 2, 3, 3 / 2, 5 / 4] : List ℚ)) → ∀ x ∈ l, b64 x = x ∧ |x| ≤ 3 := fun l h x hx => hb x (h x hx)
  refine ⟨⟨by simp, trivial, key _ ?_⟩, ⟨trivial, trivial, key _ ?_⟩, ⟨by simp, by simp, key _ ?_⟩, ⟨by simp, trivial, key _ ?_⟩,
    ⟨by simp, ?_, key _ ?_⟩, ⟨trivial, trivial, key _ ?_⟩, ⟨by simp, ?_, key _ ?_⟩, trivial⟩ <;> simp

/-! ### Where `float64` fails -/

/-- The series 100000003, 5 and the query 100000000, 5; subsequences of length 1. -/
def farPoints : Except PyErr (ColCache ℚ) :=
  Eucl.prepare zeroMem 1 ([100000003, 5].map .fin) (some ([100000000, 5].map .fin))

/-- **C82** fails for these data, whole numbers of nine digits: in `float64` the first column holds the square 8 instead of 9 (rounding
of 10¹⁶), and the second column, derived from it, is NaN instead of 0 at the equal pair (5, 5). With subsequences of one point
and whole numbers this does not depend on the order of additions. The values are shown squared. -/
theorem C82_nan_wrong :
    (farPoints.bind fun g => do
      let (g, a) ← Rounded.calcColumn b64 (Rounded.Dots.left b64) zeroMem (fun x => x) g 0
      let (_, b) ← Rounded.calcColumn b64 (Rounded.Dots.left b64) zeroMem (fun x => x) g 1
      return (a, b)) = .ok ([.fin 8, .fin 9999999600000004], [.fin 9999999000000024, .nan]) ∧
    sqd 1 (seqOf [100000003, 5]) (seqOf [100000000, 5]) 0 0 = (9 : ℚ) ∧ sqd 1 (seqOf [100000003, 5]) (seqOf [100000000, 5]) 1 1 = (0 : ℚ) := by
  decide +kernel

end Verif
