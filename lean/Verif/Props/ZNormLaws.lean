import Verif.Props.ZNorm

/-!
# C73: laws of the z-normalised distances

Every distance a z-normalised generator returns lies between 0 and 2√m; shifting and scaling the data does not change the distances of subsequences that are
not flat.
-/

namespace Verif
open Spec Finset

/-! ### The specification -/

theorem zsq_le (m : Nat) (hm : 0 < m) (s q : Nat → ℝ) (i j : Nat) (hs : std m s j ≠ 0) (hq : std m q i ≠ 0) : zsq m s q i j ≤ 4 * m := by
  have h1 : ∀ k ∈ range m, ((s (j + k) - mean m s j) / std m s j - (q (i + k) - mean m q i) / std m q i) ^ 2 ≤
      2 / std m s j ^ 2 * (s (j + k) - mean m s j) ^ 2 + 2 / std m q i ^ 2 * (q (i + k) - mean m q i) ^ 2 := by
    intro k _
    have h := sq_nonneg ((s (j + k) - mean m s j) / std m s j + (q (i + k) - mean m q i) / std m q i)
    have e1 : 2 / std m s j ^ 2 * (s (j + k) - mean m s j) ^ 2 = 2 * ((s (j + k) - mean m s j) / std m s j) ^ 2 := by rw [div_pow]; ring
    have e2 : 2 / std m q i ^ 2 * (q (i + k) - mean m q i) ^ 2 = 2 * ((q (i + k) - mean m q i) / std m q i) ^ 2 := by rw [div_pow]; ring
    rw [e1, e2]
    nlinarith
  refine (Finset.sum_le_sum h1).trans ?_
  rw [Finset.sum_add_distrib, ← Finset.mul_sum, ← Finset.mul_sum, sum_centered m hm, sum_centered m hm]
  have e1 : 2 / std m s j ^ 2 * (m * std m s j ^ 2) = 2 * m := by field_simp
  have e2 : 2 / std m q i ^ 2 * (m * std m q i ^ 2) = 2 * m := by field_simp
  rw [e1, e2]
  linarith

theorem zdist_le_two_sqrt (m : Nat) (hm : 0 < m) (noise : ℝ) (s q : Nat → ℝ) (i j : Nat) : zdist m noise s q i j ≤ 2 * √m := by
  have h4 : 2 * √(m : ℝ) = √(4 * m) := by
    rw [Real.sqrt_mul (by norm_num), show (4 : ℝ) = 2 ^ 2 by norm_num, Real.sqrt_sq (by norm_num)]
  have hm' : (0 : ℝ) ≤ m := Nat.cast_nonneg m
  have hflat : ∀ x : Nat → ℝ, ∀ i, ¬ Flat m x i → std m x i ≠ 0 := by
    intro x i h h0
    apply h
    unfold Flat
    rw [h0]; positivity
  refine (zdist_le m noise s q i j).trans ?_
  rw [h4]
  unfold zdist znoise zflat
  apply Real.sqrt_le_sqrt
  simp only [ne_eq, OfNat.ofNat_ne_zero, not_false_eq_true, zero_pow, mul_zero, zero_div, ite_self, sub_zero]
  have hif : ∀ v : ℝ, v ≤ 4 * m → (if v < 1 / 10 ^ 12 then 0 else v) ≤ 4 * m := by
    intro v hv
    split
    · linarith
    · exact hv
  apply hif
  split
  · linarith
  · split
    · linarith
    · rename_i h2
      rw [not_or] at h2
      exact zsq_le m hm s q i j (hflat _ _ h2.2) (hflat _ _ h2.1)

theorem mean_affine (m : Nat) (hm : 0 < m) (x y : Nat → ℝ) (i : Nat) (a b : ℝ) (h : ∀ k < m, y (i + k) = a * x (i + k) + b) :
    mean m y i = a * mean m x i + b := by
  have : (m : ℝ) ≠ 0 := by exact_mod_cast hm.ne'
  unfold mean
  rw [Finset.sum_congr rfl fun k hk => h k (Finset.mem_range.mp hk), Finset.sum_add_distrib, ← Finset.mul_sum]
  simp
  field_simp

theorem std_affine (m : Nat) (hm : 0 < m) (x y : Nat → ℝ) (i : Nat) (a b : ℝ) (h : ∀ k < m, y (i + k) = a * x (i + k) + b) :
    std m y i = |a| * std m x i := by
  have e : var m y i = a ^ 2 * var m x i := by
    unfold var
    rw [mean_affine m hm x y i a b h, Finset.sum_congr rfl fun k hk => by rw [h k (Finset.mem_range.mp hk)], ← mul_div_assoc, Finset.mul_sum]
    congr 1
    exact Finset.sum_congr rfl fun k _ => by ring
  unfold std
  rw [e, Real.sqrt_mul (sq_nonneg a), Real.sqrt_sq_eq_abs]

/-- The z-normalised values are the same up to a common sign. -/
theorem zsq_affine (m : Nat) (hm : 0 < m) (s q s' q' : Nat → ℝ) (i j : Nat) (a b c d : ℝ) (hac : 0 < a * c)
    (hs : ∀ k < m, s' (j + k) = a * s (j + k) + b) (hq : ∀ k < m, q' (i + k) = c * q (i + k) + d) : zsq m s' q' i j = zsq m s q i j := by
  have ha : a ≠ 0 := fun h => by rw [h, zero_mul] at hac; exact lt_irrefl _ hac
  have hc : c ≠ 0 := fun h => by rw [h, mul_zero] at hac; exact lt_irrefl _ hac
  unfold zsq
  refine Finset.sum_congr rfl fun k hk => ?_
  rw [mean_affine m hm s s' j a b hs, mean_affine m hm q q' i c d hq, std_affine m hm s s' j a b hs, std_affine m hm q q' i c d hq,
    hs k (Finset.mem_range.mp hk), hq k (Finset.mem_range.mp hk),
    show a * s (j + k) + b - (a * mean m s j + b) = a * (s (j + k) - mean m s j) by ring,
    show c * q (i + k) + d - (c * mean m q i + d) = c * (q (i + k) - mean m q i) by ring, mul_div_mul_comm, mul_div_mul_comm]
  rcases pos_and_pos_or_neg_and_neg_of_mul_pos hac with ⟨h1, h2⟩ | ⟨h1, h2⟩
  · rw [abs_of_pos h1, abs_of_pos h2, div_self ha, div_self hc, one_mul, one_mul]
  · rw [abs_of_neg h1, abs_of_neg h2, div_neg, div_neg, div_self ha, div_self hc]
    ring

theorem zdist_affine (m : Nat) (hm : 0 < m) (s q s' q' : Nat → ℝ) (i j : Nat) (a b c d : ℝ) (hac : 0 < a * c)
    (hs : ∀ k < m, s' (j + k) = a * s (j + k) + b) (hq : ∀ k < m, q' (i + k) = c * q (i + k) + d)
    (h1 : 1 / 10 ^ 6 < std m s j) (h2 : 1 / 10 ^ 6 < std m q i) (h3 : 1 / 10 ^ 6 < |a| * std m s j) (h4 : 1 / 10 ^ 6 < |c| * std m q i) :
    zdist m 0 s' q' i j = zdist m 0 s q i j := by
  rw [zdist_regular m s q i j (not_le.mpr h2) (not_le.mpr h1), zdist_regular m s' q' i j
    (by unfold Flat; rw [std_affine m hm q q' i c d hq]; exact not_le.mpr h4) (by unfold Flat; rw [std_affine m hm s s' j a b hs]; exact not_le.mpr h3),
    zsq_affine m hm s q s' q' i j a b c d hac hs hq]

theorem seqOf_map_affine (m : Nat) (l : List ℝ) (a b : ℝ) (i : Nat) (hi : i + m ≤ l.length) :
    ∀ k < m, seqOf (l.map fun x => a * x + b) (i + k) = a * seqOf l (i + k) + b := by
  intro k hk
  unfold seqOf
  rw [List.getD_eq_getElem?_getD, List.getD_eq_getElem?_getD, List.getElem?_map, List.getElem?_eq_getElem (by omega)]
  rfl

/-! ### C73 -/

/-- **C73, range.** Whatever the data, the noise level and the calls before: every distance of every diagonal and every single distance is a number between 0
and 2√m. -/
theorem C73_range (mem : ZN.Mem) (hmem : mem.Ok) (m N : Nat) (noise : ℝ) (M : Option Nat) (z0 z : ZN) (st0 : GSt ℝ) (hm : 0 < m)
    (h0 : ZN.Fresh mem m noise z0 N M st0) (ops : List (GOp ℝ)) (hrun : ZN.run mem z0 ops = .ok z) :
    (∀ d, (st0.run N M ops).Valid m M (.diag d) → ∃ vs, ZN.calcDiagonal z d = .ok vs ∧ ∀ v ∈ vs, ∃ x, v = .fin x ∧ 0 ≤ x ∧ x ≤ 2 * √m) ∧
    ∀ r c : Nat, r + m ≤ (st0.run N M ops).q.length → c + m ≤ (st0.run N M ops).s.length →
      ∃ x, ZN.calcSingle z r c none = .ok (.fin x) ∧ 0 ≤ x ∧ x ≤ 2 * √m := by
  have hb := ZN.run_base mem z0 z m noise N M st0 ops (h0.base hmem hm).1 hrun
  refine ⟨fun d hd => ⟨_, z.calcDiagonal_ok m noise N M _ d hb hd, ?_⟩, fun r c hr hc => ⟨_, z.calcSingle_ok m noise N M _ _ r c hb hr hc none (Or.inl rfl),
    zdist_nonneg _ _ _ _ _ _, zdist_le_two_sqrt m hm _ _ _ _ _⟩⟩
  intro v hv
  obtain ⟨k, -, rfl⟩ := List.mem_map.mp hv
  exact ⟨_, rfl, zdist_nonneg _ _ _ _ _ _, zdist_le_two_sqrt m hm _ _ _ _ _⟩

/-- **C73, range of columns**, after valid and `Safe` calls. -/
theorem C73_range_column (mem : ZN.Mem) (hmem : mem.Ok) (m N : Nat) (noise : ℝ) (M : Option Nat) (z0 : ZN) (st0 : GSt ℝ) (hm : 0 < m)
    (h0 : ZN.Fresh mem m noise z0 N M st0) (ops : List (GOp ℝ)) (c : Nat)
    (hok : st0.All N M (fun st op => st.Valid m M op ∧ st.Safe op) (ops ++ [.column c])) :
    ∃ z z' vs, ZN.run mem z0 ops = .ok z ∧ ZN.calcColumn mem.fl z c = .ok (z', vs) ∧ ∀ v ∈ vs, ∃ x, v = .fin x ∧ 0 ≤ x ∧ x ≤ 2 * √m := by
  obtain ⟨ha, hb⟩ := GSt.All.split hok
  obtain ⟨z, h1, h2, h3⟩ := ZN.run_cache mem hmem z0 m noise N M st0 ops (h0.base hmem hm).1 (h0.base hmem hm).2 ha
  obtain ⟨z', h4, -, -⟩ := z.calcColumn_ok mem hmem m noise N M _ c h2 h3 hb.1.1 hb.1.2
  refine ⟨z, z', _, h1, h4, ?_⟩
  intro v hv
  obtain ⟨k, -, rfl⟩ := List.mem_map.mp hv
  exact ⟨_, rfl, zdist_nonneg _ _ _ _ _ _, zdist_le_two_sqrt m hm _ _ _ _ _⟩

/-- **C73, shifting and scaling.** Two generators without noise elimination, of any (possibly different) histories, of which the second sees the series
`a * s + b` and the query `c * q + d` where the first sees `s` and `q`; `a` and `c` have the same sign. A pair of subsequences none of which is flat, before or
after, has the same distance in both, on diagonals and as single distance. -/
theorem C73_affine (mem : ZN.Mem) (hmem : mem.Ok) (m N N' : Nat) (M M' : Option Nat) (z0 z z0' z' : ZN) (st0 st0' : GSt ℝ) (hm : 0 < m)
    (h0 : ZN.Fresh mem m 0 z0 N M st0) (h0' : ZN.Fresh mem m 0 z0' N' M' st0') (ops ops' : List (GOp ℝ)) (hrun : ZN.run mem z0 ops = .ok z)
    (hrun' : ZN.run mem z0' ops' = .ok z') (a b c d : ℝ) (hac : 0 < a * c) (s q : List ℝ) (hs : s = (st0.run N M ops).s) (hq : q = (st0.run N M ops).q)
    (hs' : (st0'.run N' M' ops').s = s.map fun x => a * x + b) (hq' : (st0'.run N' M' ops').q = q.map fun x => c * x + d) (i j : Nat)
    (hi : i + m ≤ q.length) (hj : j + m ≤ s.length) (h1 : 1 / 10 ^ 6 < std m (seqOf s) j) (h2 : 1 / 10 ^ 6 < std m (seqOf q) i)
    (h3 : 1 / 10 ^ 6 < |a| * std m (seqOf s) j) (h4 : 1 / 10 ^ 6 < |c| * std m (seqOf q) i) :
    ∃ x ds ds', ZN.calcDiagonal z ((j : Int) - i) = .ok ds ∧ ZN.calcDiagonal z' ((j : Int) - i) = .ok ds' ∧ ds[min i j]? = some (.fin x) ∧
      ds'[min i j]? = some (.fin x) ∧ ZN.calcSingle z i j none = .ok (.fin x) ∧ ZN.calcSingle z' i j none = .ok (.fin x) := by
  subst hs hq
  have hb := ZN.run_base mem z0 z m 0 N M st0 ops (h0.base hmem hm).1 hrun
  have hb' := ZN.run_base mem z0' z' m 0 N' M' st0' ops' (h0'.base hmem hm).1 hrun'
  have hi' : i + m ≤ (st0'.run N' M' ops').q.length := by rw [hq', List.length_map]; exact hi
  have hj' : j + m ≤ (st0'.run N' M' ops').s.length := by rw [hs', List.length_map]; exact hj
  have hv : (st0.run N M ops).Valid m M (.diag ((j : Int) - i)) := ⟨by omega, by omega, by omega, by omega⟩
  have hv' : (st0'.run N' M' ops').Valid m M' (.diag ((j : Int) - i)) := ⟨by omega, by omega, by omega, by omega⟩
  have heq := zdist_affine m hm (seqOf (st0.run N M ops).s) (seqOf (st0.run N M ops).q) (seqOf (st0'.run N' M' ops').s) (seqOf (st0'.run N' M' ops').q)
    i j a b c d hac (by rw [hs']; exact seqOf_map_affine m _ a b j hj) (by rw [hq']; exact seqOf_map_affine m _ c d i hi) h1 h2 h3 h4
  have hsingle := z'.calcSingle_ok m 0 N' M' _ _ i j hb' hi' hj' none (Or.inl rfl)
  rw [heq] at hsingle
  obtain ⟨d1, d2, d3⟩ := diag_cell m _ _ i j hi hj
  obtain ⟨d1', d2', d3'⟩ := diag_cell m _ _ i j hi' hj'
  refine ⟨_, _, _, z.calcDiagonal_ok m 0 N M _ _ hb hv, z'.calcDiagonal_ok m 0 N' M' _ _ hb' hv', ?_, ?_,
    z.calcSingle_ok m 0 N M _ _ i j hb hi hj none (Or.inl rfl), hsingle⟩
  · rw [List.getElem?_map, List.getElem?_range d1, Option.map_some, d2, d3]
  · rw [List.getElem?_map, List.getElem?_range d1', Option.map_some, d2', d3', heq]

/-- **C73, shifting and scaling**, columns after valid and `Safe` calls. -/
theorem C73_affine_column (mem : ZN.Mem) (hmem : mem.Ok) (m N N' : Nat) (M M' : Option Nat) (z0 z0' : ZN) (st0 st0' : GSt ℝ) (hm : 0 < m)
    (h0 : ZN.Fresh mem m 0 z0 N M st0) (h0' : ZN.Fresh mem m 0 z0' N' M' st0') (ops ops' : List (GOp ℝ)) (j : Nat)
    (hok : st0.All N M (fun st op => st.Valid m M op ∧ st.Safe op) (ops ++ [.column j]))
    (hok' : st0'.All N' M' (fun st op => st.Valid m M' op ∧ st.Safe op) (ops' ++ [.column j]))
    (a b c d : ℝ) (hac : 0 < a * c) (s q : List ℝ) (hs : s = (st0.run N M ops).s) (hq : q = (st0.run N M ops).q)
    (hs' : (st0'.run N' M' ops').s = s.map fun x => a * x + b) (hq' : (st0'.run N' M' ops').q = q.map fun x => c * x + d)
    (h1 : 1 / 10 ^ 6 < std m (seqOf s) j) (h3 : 1 / 10 ^ 6 < |a| * std m (seqOf s) j) :
    ∃ z z' r r', ZN.run mem z0 ops = .ok z ∧ ZN.run mem z0' ops' = .ok z' ∧ ZN.calcColumn mem.fl z j = .ok r ∧ ZN.calcColumn mem.fl z' j = .ok r' ∧
      ∀ i, i + m ≤ q.length → 1 / 10 ^ 6 < std m (seqOf q) i → 1 / 10 ^ 6 < |c| * std m (seqOf q) i →
        ∃ x, r.2[i]? = some (.fin x) ∧ r'.2[i]? = some (.fin x) := by
  subst hs hq
  obtain ⟨ha, hb⟩ := GSt.All.split hok
  obtain ⟨ha', hb'⟩ := GSt.All.split hok'
  obtain ⟨z, e1, e2, e3⟩ := ZN.run_cache mem hmem z0 m 0 N M st0 ops (h0.base hmem hm).1 (h0.base hmem hm).2 ha
  obtain ⟨w, e4, -, -⟩ := z.calcColumn_ok mem hmem m 0 N M _ j e2 e3 hb.1.1 hb.1.2
  obtain ⟨z', e1', e2', e3'⟩ := ZN.run_cache mem hmem z0' m 0 N' M' st0' ops' (h0'.base hmem hm).1 (h0'.base hmem hm).2 ha'
  obtain ⟨w', e4', -, -⟩ := z'.calcColumn_ok mem hmem m 0 N' M' _ j e2' e3' hb'.1.1 hb'.1.2
  refine ⟨z, z', _, _, e1, e1', e4, e4', fun i hi h2 h4 =>
    ⟨zdist m 0 (seqOf (st0.run N M ops).s) (seqOf (st0.run N M ops).q) i j, ?_, ?_⟩⟩
  · rw [List.getElem?_map, List.getElem?_range (by omega)]; rfl
  · have hi' : i + m ≤ (st0'.run N' M' ops').q.length := by rw [hq', List.length_map]; exact hi
    rw [List.getElem?_map, List.getElem?_range (by omega), Option.map_some]
    have hj := hb.1.1.1
    rw [zdist_affine m hm (seqOf (st0.run N M ops).s) (seqOf (st0.run N M ops).q) (seqOf (st0'.run N' M' ops').s) (seqOf (st0'.run N' M' ops').q)
      i j a b c d hac (by rw [hs']; exact seqOf_map_affine m _ a b j hj) (by rw [hq']; exact seqOf_map_affine m _ c d i hi) h1 h2 h3 h4]

/-- the upper bound is attained: opposite subsequences with m = 2 -/
example : zdist 2 0 (seqOf [0, 0, 1, 0]) (seqOf [0, 1, 0]) 1 1 = 2 * √(2 : Nat) := by
  obtain ⟨⟨m1, m2⟩, m3, m4⟩ := stale_stats
  have hf1 : ¬ Flat 2 (seqOf [0, 1, 0]) 1 := by unfold Flat; rw [m4]; norm_num
  have hf2 : ¬ Flat 2 (seqOf [0, 0, 1, 0]) 1 := by unfold Flat; rw [m2]; norm_num
  rw [zdist_regular 2 _ _ 1 1 hf1 hf2]
  have : zsq 2 (seqOf [0, 0, 1, 0]) (seqOf [0, 1, 0]) 1 1 = 8 := by
    unfold zsq
    rw [m1, m2, m3, m4]
    norm_num [Finset.sum_range_succ, seqOf]
  rw [this, if_neg (by norm_num), show (8 : ℝ) = 2 ^ 2 * 2 by norm_num, Real.sqrt_mul (by norm_num), Real.sqrt_sq (by norm_num)]
  norm_num

/-- the hypotheses of `C73_range_column` are met by a streaming history with noise elimination -/
example : ∃ z z' vs, ZN.run ZN.zeroMem z exOpsR = .ok z' ∧ ZN.Fresh ZN.zeroMem 2 (1 / 2) z 4 (some 3) ⟨[], [], none⟩ ∧
    ZN.calcColumn ZN.zeroMem.fl z' 1 = .ok vs ∧ ∀ v ∈ vs.2, ∃ x, v = .fin x ∧ 0 ≤ x ∧ x ≤ 2 * √(2 : Nat) := by
  obtain ⟨z0, h0⟩ := exFresh (1 / 2)
  obtain ⟨z, z', vs, h1, h2, h3⟩ := C73_range_column ZN.zeroMem ZN.zeroMem_ok 2 4 (1 / 2) (some 3) z0 _ (by norm_num) h0 exOpsR 1 exOpsR_ok
  exact ⟨z0, z, _, h1, h0, h2, h3⟩

/-- `C73_affine` for a self-join of `[1, 4, 2]` and of `[1, -5, -1]`: multiplied by -2 and shifted by 3 -/
example : ∃ (z z' : ZN) (x : ℝ), ZN.prepare ZN.zeroMem 0 2 ([1, 4, 2].map .fin) none = .ok z ∧
    ZN.prepare ZN.zeroMem 0 2 ([1, -5, -1].map .fin) none = .ok z' ∧ ZN.calcSingle z 0 1 none = .ok (.fin x) ∧ ZN.calcSingle z' 0 1 none = .ok (.fin x) := by
  obtain ⟨z, h, -⟩ := ZN.prepare_ok ZN.zeroMem ZN.zeroMem_ok 0 2 (by norm_num) [1, 4, 2] none (by simp) (by simp)
  obtain ⟨z', h', -⟩ := ZN.prepare_ok ZN.zeroMem ZN.zeroMem_ok 0 2 (by norm_num) [1, -5, -1] none (by simp) (by simp)
  have a0 : mean 2 (seqOf [1, 4, 2]) 0 = 5 / 2 := by norm_num [mean, seqOf, Finset.sum_range_succ]
  have a1 : mean 2 (seqOf [1, 4, 2]) 1 = 3 := by norm_num [mean, seqOf, Finset.sum_range_succ]
  have b0 : std 2 (seqOf [1, 4, 2]) 0 = 3 / 2 := by
    rw [std, var, a0, show (∑ k ∈ range 2, (seqOf [1, 4, 2] (0 + k) - 5 / 2 : ℝ) ^ 2) / (2 : Nat) = (3 / 2) ^ 2 by
      norm_num [seqOf, Finset.sum_range_succ], Real.sqrt_sq (by norm_num)]
  have b1 : std 2 (seqOf [1, 4, 2]) 1 = 1 := by
    rw [std, var, a1, show (∑ k ∈ range 2, (seqOf [1, 4, 2] (1 + k) - 3 : ℝ) ^ 2) / (2 : Nat) = 1 by
      norm_num [seqOf, Finset.sum_range_succ], Real.sqrt_one]
  obtain ⟨x, ds, ds', -, -, -, -, h5, h6⟩ := C73_affine ZN.zeroMem ZN.zeroMem_ok 2 _ _ _ _ z z z' z' _ _ (by norm_num)
    (.batch [1, 4, 2] none z (by simp) (by simp) h) (.batch [1, -5, -1] none z' (by simp) (by simp) h') [] [] rfl rfl (-2) 3 (-2) 3 (by norm_num)
    [1, 4, 2] [1, 4, 2] rfl rfl (by norm_num [GSt.run]) (by norm_num [GSt.run]) 0 1 (by simp) (by simp) (by rw [b1]; norm_num) (by rw [b0]; norm_num)
    (by rw [b1]; norm_num) (by rw [b0]; norm_num)
  exact ⟨z, z', x, h, h', h5, h6⟩

example (z0 z : ZN) (h0 : ZN.Fresh ZN.zeroMem 2 (1 / 2) z0 4 (some 3) ⟨[], [], none⟩) (h1 : ZN.run ZN.zeroMem z0 exOpsR = .ok z) :=
  C73_range ZN.zeroMem ZN.zeroMem_ok 2 4 (1 / 2) (some 3) z0 z _ (by norm_num) h0 exOpsR h1

/-- `C73_affine_column`: the series stretched by 2 and shifted by 1, the query by 3 and 0, here the same data. -/
example (z z' : ZN) (h : ZN.prepare ZN.zeroMem 0 2 (([1, 4, 2] : List ℝ).map .fin) (some (([0, 5] : List ℝ).map .fin)) = .ok z)
    (h' : ZN.prepare ZN.zeroMem 0 2 (([3, 9, 5] : List ℝ).map .fin) (some (([0, 15] : List ℝ).map .fin)) = .ok z') :=
  have hstd : (1 : ℝ) / 10 ^ 6 < std 2 (seqOf [1, 4, 2]) 1 := by
    have a : mean 2 (seqOf [1, 4, 2]) 1 = 3 := by norm_num [mean, seqOf, Finset.sum_range_succ]
    have c : var 2 (seqOf [1, 4, 2]) 1 = 1 := by rw [var, a]; norm_num [seqOf, Finset.sum_range_succ]
    rw [std, c, Real.sqrt_one]; norm_num
  C73_affine_column ZN.zeroMem ZN.zeroMem_ok 2 3 3 (some 2) (some 2) z z' _ _ (by norm_num) (.batch [1, 4, 2] (some [0, 5]) z (by simp) (by simp) h)
    (.batch [3, 9, 5] (some [0, 15]) z' (by simp) (by simp) h') [.column 0] [] 1 (by simp [GSt.All, GSt.Valid, GSt.Safe, GSt.step]) (by simp [GSt.All, GSt.Valid, GSt.Safe, GSt.step])
    2 1 3 0 (by norm_num) [1, 4, 2] [0, 5] (by simp [GSt.run, GSt.step]) (by simp [GSt.run, GSt.step]) (by simp [GSt.run]; norm_num) (by simp [GSt.run]; norm_num) hstd
    (by rw [abs_of_pos (by norm_num)]; linarith)

end Verif
