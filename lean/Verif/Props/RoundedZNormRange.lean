import Verif.Props.RoundedZNormError

/-!
# C86: range and identity of z-normalised distances in floating point; cases meeting the hypotheses of C84 and C85
-/

namespace Verif
open Spec

namespace RoundedZ

section
variable {K : Type} [Field K] [LinearOrder K] [IsStrictOrderedRing K]

theorem convLeft_within {rnd : K → K} {u η : K} (hr : IsRounding rnd u η) (m : Nat) (hm : 0 < m) (L : K) :
    ConvWithin m L (roundErr u η m m (m * L ^ 2)) (convLeft rnd) := by
  intro x w hw hx hb
  have key : ∀ i, i + m ≤ x.length → ∃ v, (Rounded.Dots.left rnd).rows (((x.map .fin).drop i).take m) (w.map .fin) = .fin v ∧
      |v - ∑ k ∈ Finset.range m, seqOf x (i + k) * seqOf w k| ≤ roundErr u η m m (m * L ^ 2) := by
    intro i hi
    have hl : ((x.drop i).take m).length = m := by rw [List.length_take, List.length_drop]; omega
    obtain ⟨v, v1, v2⟩ := (Rounded.left_ok rnd).rows ((x.drop i).take m) w (by intro h; rw [h] at hl; simp at hl; omega) (by rw [hl, hw])
    refine ⟨v, by rw [← List.map_drop, ← List.map_take]; exact v1, ?_⟩
    have hz : (((x.drop i).take m).zip w).length = m := by rw [List.length_zip, hl, hw, Nat.min_self]
    obtain ⟨-, hc⟩ := v2.close hr
    have hle := absDot_le (((x.drop i).take m).zip w) L (by
      intro p hp
      have := List.of_mem_zip hp
      exact ⟨hb _ (List.mem_append_left _ (List.mem_of_mem_drop (List.mem_of_mem_take this.1))), hb _ (List.mem_append_right _ this.2)⟩)
    rw [hz] at hc hle
    have := (hc.mono hr.u_nonneg hr.η_nonneg le_rfl le_rfl hle).err
    have hs := pairSum_windows (fun a b : K => a * b) m x w 0 i hi (by omega)
    rw [List.drop_zero, show w.take m = w from List.take_of_length_le (by omega)] at hs
    unfold pairSum at hs
    rw [show ((((x.drop i).take m).zip w).map fun p => p.1 * p.2) = List.zipWith (fun a b => a * b) ((x.drop i).take m) w by
      rw [List.zip, List.map_zipWith], hs] at this
    simpa using this
  choose! f f1 f2 using key
  refine ⟨(List.range (x.length + 1 - m)).map f, ?_, by simp, ?_⟩
  · unfold convLeft
    rw [List.length_map, List.length_map, hw, List.map_map]
    congr 1
    apply List.map_congr_left
    intro i hi
    rw [List.mem_range] at hi
    exact f1 i (by omega)
  · intro i v hv
    by_cases hi : i < x.length + 1 - m
    · rw [List.getElem?_map, List.getElem?_range hi] at hv
      cases hv
      exact f2 i (by omega)
    · rw [List.getElem?_eq_none (by simp; omega)] at hv
      cases hv

theorem ConvWithin.numbers {m : Nat} {L E : K} {conv : List (Fl K) → List (Fl K) → Except PyErr (List (Fl K))}
    (h : ∀ L, ∃ E, ConvWithin m L E conv) : ConvNumbers m conv := by
  intro x w hw hx
  obtain ⟨L, hL⟩ : ∃ L : K, ∀ y ∈ x ++ w, |y| ≤ L := by
    generalize x ++ w = l
    induction l with
    | nil => exact ⟨0, by simp⟩
    | cons a l ih =>
      obtain ⟨L, hL⟩ := ih
      refine ⟨max |a| L, fun y hy => ?_⟩
      rcases List.mem_cons.1 hy with rfl | hy
      · exact le_max_left _ _
      · exact (hL y hy).trans (le_max_right _ _)
  obtain ⟨E, hE⟩ := h L
  obtain ⟨vs, h1, h2, -⟩ := hE x w hw hx hL
  exact ⟨vs, h1, h2⟩

/-- The direct evaluation meets the assumption of C84. -/
theorem convLeft_numbers {rnd : K → K} {u η : K} (hr : IsRounding rnd u η) (m : Nat) (hm : 0 < m) : ConvNumbers m (convLeft rnd) :=
  ConvWithin.numbers (L := 0) (E := 0) fun L => ⟨_, convLeft_within hr m hm L⟩

/-- The square of 1e-6 does not vanish in `float64`. -/
theorem b64_flat [FloorRing K] : 0 < b64 (b64 (1 / 10 ^ 6 : K) * b64 (1 / 10 ^ 6)) := by
  have hr := b64_isRounding (K := K)
  have h1 := (abs_le.1 (hr.err (1 / 10 ^ 6 : K))).1
  have hu : (2 : K) ^ (-53 : ℤ) ≤ 1 / 10 := by
    rw [zpow_neg, ← one_div]; apply one_div_le_one_div_of_le (by norm_num); norm_num
  have hη : (2 : K) ^ (-1075 : ℤ) ≤ 1 / 10 ^ 20 :=
    (zpow_le_zpow_right₀ (by norm_num) (by norm_num : (-1075 : ℤ) ≤ -100)).trans (by
      rw [zpow_neg, ← one_div]; apply one_div_le_one_div_of_le (by norm_num); norm_num)
  rw [abs_of_pos (by positivity : (0 : K) < 1 / 10 ^ 6)] at h1
  have h2 : (1 : K) / 10 ^ 7 ≤ b64 (1 / 10 ^ 6) := by
    have : (2 : K) ^ (-53 : ℤ) * (1 / 10 ^ 6) ≤ 1 / 10 * (1 / 10 ^ 6) := mul_le_mul_of_nonneg_right hu (by positivity)
    have h3 : (1 : K) / 10 ^ 6 - 1 / 10 * (1 / 10 ^ 6) - 1 / 10 ^ 20 ≥ 1 / 10 ^ 7 := by norm_num
    linarith
  have h3 : (1 : K) / 10 ^ 14 ≤ b64 (1 / 10 ^ 6) * b64 (1 / 10 ^ 6) := by
    have := mul_le_mul h2 h2 (by positivity) (by linarith [show (0 : K) < 1 / 10 ^ 7 by positivity])
    calc (1 : K) / 10 ^ 14 = 1 / 10 ^ 7 * (1 / 10 ^ 7) := by norm_num
      _ ≤ _ := this
  refine lt_of_lt_of_le ?_ (hr.mono h3)
  have h4 := (abs_le.1 (hr.err (1 / 10 ^ 14 : K))).1
  rw [abs_of_pos (by positivity : (0 : K) < 1 / 10 ^ 14)] at h4
  have : (2 : K) ^ (-53 : ℤ) * (1 / 10 ^ 14) ≤ 1 / 10 * (1 / 10 ^ 14) := mul_le_mul_of_nonneg_right hu (by positivity)
  have h5 : (1 : K) / 10 ^ 14 - 1 / 10 * (1 / 10 ^ 14) - 1 / 10 ^ 20 > 0 := by norm_num
  linarith

/-- Memory filled with zeros. -/
def zeros : Mem K := ⟨fun n => List.replicate n (.fin 0), fun n => List.replicate n 0, fun n => List.replicate n false⟩

omit [LinearOrder K] [IsStrictOrderedRing K] in
theorem zeros_ok : (zeros : Mem K).Ok := ⟨fun n => by simp [zeros], fun n => by simp [zeros], fun n => by simp [zeros]⟩

end

/-- Mean and deviation rounded to the nearest float. -/
noncomputable def nearest (rnd : ℝ → ℝ) (m : Nat) : Stat ℝ := ⟨fun w => rnd (mean m (seqOf w) 0), fun w => rnd (std m (seqOf w) 0)⟩

theorem nearest_within {rnd : ℝ → ℝ} {u η : ℝ} (hr : IsRounding rnd u η) (m : Nat) (hm : 0 < m) (L : ℝ) :
    StatWithin m L (u * L + η) (u * L + η) (nearest rnd m) := by
  intro w hw hb
  have h : ∀ k, k < m → |seqOf w (0 + k)| ≤ L := fun k hk => seqOf_abs_le hb _ (by omega)
  have hu := hr.u_nonneg
  refine ⟨(hr.err _).trans ?_, (hr.err _).trans ?_⟩
  · have := mul_le_mul_of_nonneg_left (mean_abs_le (j := 0) hm h) hu; linarith
  · rw [abs_of_nonneg (std_nonneg _ _ _)]
    have := mul_le_mul_of_nonneg_left (std_le (j := 0) hm h) hu; linarith

theorem devErr_small (a b : ℝ) (ha0 : 0 ≤ a) (hb0 : 0 ≤ b) (ha : a ≤ 1 / 100) (hb : b ≤ 1 / 100) : devErr a b 1 (a * 1 + b) < (1 / 2) ^ 2 := by
  unfold devErr rounded prodErr
  have hab : a * 1 + b ≤ 1 / 50 := by linarith
  have h0 : 0 ≤ a * 1 + b := by linarith
  have : (a * 1 + b) * (a * 1 + b) ≤ 1 / 50 * (1 / 50) := mul_le_mul hab hab h0 (by norm_num)
  have h3 : 1 * (a * 1 + b) + 1 * (a * 1 + b) + (a * 1 + b) * (a * 1 + b) ≤ 1 / 20 := by linarith
  have h4 : (1 + a) * (1 * (a * 1 + b) + 1 * (a * 1 + b) + (a * 1 + b) * (a * 1 + b)) ≤ 2 * (1 / 20) := by
    refine mul_le_mul ?_ h3 (by positivity) (by norm_num)
    linarith
  rw [one_pow, mul_one a]
  rw [mul_one a] at h4
  linarith [show (2 : ℝ) * (1 / 20) + 1 / 100 + 1 / 100 < (1 / 2) ^ 2 by norm_num]

end RoundedZ

open RoundedZ in
/-- C84 applies to `float64` and the direct evaluation of the dot products, whatever `np.mean` and `np.std` return, for several calls. -/
example (stat : Stat ℚ) : ∃ (z0 : Gen ℚ) (st0 : GSt ℚ), Fresh b64 stat zeros 2 (1 / 10) z0 6 (some 3) st0 ∧ ConvNumbers 2 (convLeft (b64 (K := ℚ))) ∧
    (0 : ℚ) < b64 (b64 (1 / 10 ^ 6) * b64 (1 / 10 ^ 6)) ∧
    st0.All 6 (some 3) (fun st op => st.Valid 2 (some 3) op ∧ st.Safe op)
      ([.query [1, 2, 3], .series [1, 3 / 2, 0], .column 0, .diag 0, .column 1, .series [5 / 4]] ++ [.column 2]) := by
  obtain ⟨z, h1, -, -, -⟩ := prepareStreaming_ok (rnd := b64) (stat := stat) zeros_ok (1 / 10 : ℚ) 1 le_rfl (by norm_num) 2 (by norm_num) 6 (some 3)
    (by norm_num) (by simp)
  refine ⟨z, _, Fresh.streaming 1 6 (some 3) z le_rfl (by norm_num) (by norm_num) (by simp) h1, convLeft_numbers b64_isRounding 2 (by norm_num), b64_flat, ?_⟩
  simp [GSt.All, GSt.step, GSt.Valid, GSt.Safe, lastN]

open RoundedZ in
/-- C85 applies to `float64`, statistics rounded to the nearest float and the direct evaluation of the dot products: a batch self-join on
three points, the deviations of both subsequences are 1/2. -/
example : ∃ (z0 : Gen ℝ) (st0 : GSt ℝ) (eσ E τ φ : ℝ), Fresh b64 (nearest b64 2) zeros 2 0 z0 3 none st0 ∧ 0 ≤ E ∧
    StatWithin 2 1 eσ eσ (nearest b64 2) ∧ ConvWithin 2 1 E (convLeft (b64 (K := ℝ))) ∧ devErr (2 ^ (-53 : ℤ)) (2 ^ (-1075 : ℤ)) 1 eσ < τ ^ 2 ∧
    1 / 10 ^ 6 < τ ∧ b64 (1 / 10 ^ 6) + eσ < τ ∧ φ ≤ 1 / 10 ^ 6 ∧ φ + eσ ≤ b64 (1 / 10 ^ 6) ∧ (∀ x ∈ st0.s ++ st0.q, |x| ≤ 1) ∧
    st0.Valid 2 none (.column 1) ∧ st0.Safe (.column 1) ∧ Clear τ φ (std 2 (seqOf st0.s) 0) ∧ Clear τ φ (std 2 (seqOf st0.s) 1) := by
  have hr := b64_isRounding (K := ℝ)
  obtain ⟨z, h1, -, -⟩ := prepare_ok (rnd := b64) (stat := nearest b64 2) zeros_ok (0 : ℝ) 2 (by norm_num) [0, 1, 0] none (by norm_num) (by simp)
  have he := abs_le.1 (hr.err (1 / 10 ^ 6 : ℝ))
  rw [abs_of_pos (by positivity : (0 : ℝ) < 1 / 10 ^ 6)] at he
  have hu : (2 : ℝ) ^ (-53 : ℤ) ≤ 1 / 10 ^ 15 := by
    rw [zpow_neg, ← one_div]; apply one_div_le_one_div_of_le (by norm_num); norm_num
  have hη : (2 : ℝ) ^ (-1075 : ℤ) ≤ 1 / 10 ^ 20 :=
    (zpow_le_zpow_right₀ (by norm_num) (by norm_num : (-1075 : ℤ) ≤ -100)).trans (by
      rw [zpow_neg, ← one_div]; apply one_div_le_one_div_of_le (by norm_num); norm_num)
  have hu0 : (0 : ℝ) < 2 ^ (-53 : ℤ) := by positivity
  have hη0 : (0 : ℝ) < 2 ^ (-1075 : ℤ) := by positivity
  have hs0 : std 2 (seqOf ([0, 1, 0] : List ℝ)) 0 = 1 / 2 := by
    unfold std var mean
    rw [Real.sqrt_eq_iff_mul_self_eq (by positivity) (by norm_num)]
    norm_num [Finset.sum_range_succ, seqOf]
  have hs1 : std 2 (seqOf ([0, 1, 0] : List ℝ)) 1 = 1 / 2 := by
    unfold std var mean
    rw [Real.sqrt_eq_iff_mul_self_eq (by positivity) (by norm_num)]
    norm_num [Finset.sum_range_succ, seqOf]
  refine ⟨z, _, _, _, 1 / 2, 1 / 10 ^ 7, Fresh.batch [0, 1, 0] none z (by norm_num) (by simp) h1,
    roundErr_nonneg hr.u_nonneg hr.η_nonneg (by positivity) 2 2, nearest_within hr 2 (by norm_num) 1, convLeft_within hr 2 (by norm_num) 1,
    ?_, by norm_num, ?_, by norm_num, ?_, ?_, ⟨by simp, by simp⟩, by simp [GSt.Safe], Or.inl ?_, Or.inl ?_⟩
  · exact devErr_small _ _ hu0.le hη0.le (hu.trans (by norm_num)) (hη.trans (by norm_num))
  · have : (2 : ℝ) ^ (-53 : ℤ) * (1 / 10 ^ 6) ≤ 1 / 10 ^ 15 * (1 / 10 ^ 6) := mul_le_mul_of_nonneg_right hu (by positivity)
    linarith [show (1 : ℝ) / 10 ^ 15 * (1 / 10 ^ 6) + 1 / 10 ^ 20 + (1 / 10 ^ 15 + 1 / 10 ^ 20) + 1 / 10 ^ 7 ≤ 1 / 10 ^ 6 by norm_num,
      show (1 : ℝ) / 10 ^ 6 + 1 / 10 ^ 6 < 1 / 2 by norm_num, show (0 : ℝ) < 1 / 10 ^ 7 by norm_num]
  · have : (2 : ℝ) ^ (-53 : ℤ) * (1 / 10 ^ 6) ≤ 1 / 10 ^ 15 * (1 / 10 ^ 6) := mul_le_mul_of_nonneg_right hu (by positivity)
    linarith [show (1 : ℝ) / 10 ^ 15 * (1 / 10 ^ 6) + 1 / 10 ^ 20 + (1 / 10 ^ 15 + 1 / 10 ^ 20) + 1 / 10 ^ 7 ≤ 1 / 10 ^ 6 by norm_num,
      show (1 : ℝ) / 10 ^ 6 + 1 / 10 ^ 6 < 1 / 2 by norm_num, show (0 : ℝ) < 1 / 10 ^ 7 by norm_num]
  · simp
  · rw [hs0]
  · rw [hs1]

/-- The bound of C85 for `float64`, values up to 10, deviations of at least 1, subsequences of length 100, noise 0.1, the 10000th column,
statistics exact to 1e-14 and dot products to 1e-10. -/
example : znormErr (2 ^ (-53 : ℤ) : ℚ) (2 ^ (-1075 : ℤ)) (b64 (1 / 10 ^ 12)) 100 10 (1 / 10 ^ 14) (1 / 10 ^ 14) 1 (1 / 10)
    (dotColumnErr (2 ^ (-53 : ℤ)) (2 ^ (-1075 : ℤ)) 100 10 (1 / 10 ^ 10) 10000) ≤ 1 / 10 ^ 5 := by
  unfold znormErr corrErr noiseErr noiseMax devErr dotColumnErr rounded prodErr; decide +kernel

/-! ### Range and identity -/

theorem zsq_nonneg (m : Nat) (s q : Nat → ℝ) (i j : Nat) : 0 ≤ zsq m s q i j := by
  unfold zsq; exact Finset.sum_nonneg fun k _ => sq_nonneg _

theorem zdist_range (m : Nat) (hm : 0 < m) (s q : Nat → ℝ) (i j : Nat) : zdist m 0 s q i j ≤ 2 * √m := by
  have hmm : (0 : ℝ) < m := by exact_mod_cast hm
  have h : znoise m 0 s q i j ≤ 4 * m := by
    unfold znoise
    have : zflat m s q i j ≤ 4 * m := by
      unfold zflat
      split
      · positivity
      · split
        · linarith
        · rename_i h1 h2
          unfold Flat at h2
          rw [not_or, not_le, not_le] at h2
          have p1 : 0 < std m q i := lt_trans (by positivity) h2.1
          have p2 : 0 < std m s j := lt_trans (by positivity) h2.2
          rw [← zsq_formula m hm s q i j p2.ne' p1.ne']
          have hc := cov_abs_le (m := m) (s := s) (q := q) (i := i) (j := j) hm
          have hB := mul_pos p1 p2
          have : -(m : ℝ) ≤ ((∑ k ∈ Finset.range m, s (j + k) * q (i + k)) - m * mean m q i * mean m s j) / (std m q i * std m s j) := by
            rw [le_div_iff₀ hB]
            have := (abs_le.1 hc).1
            linarith
          linarith
    simpa using this
  unfold zdist
  rw [show (2 : ℝ) * √m = √(4 * m) by
    rw [Real.sqrt_mul (by norm_num), show (4 : ℝ) = 2 ^ 2 by norm_num, Real.sqrt_sq (by norm_num)]]
  apply Real.sqrt_le_sqrt
  split
  · positivity
  · exact h

theorem zdist_same (m : Nat) (s q : Nat → ℝ) (i j : Nat) (h : ∀ k, k < m → s (j + k) = q (i + k)) : zdist m 0 s q i j = 0 := by
  have hmean : mean m s j = mean m q i := by
    unfold mean; rw [Finset.sum_congr rfl fun k hk => h k (Finset.mem_range.1 hk)]
  have hstd : std m s j = std m q i := by
    unfold std var
    rw [hmean, Finset.sum_congr rfl fun k hk => by rw [h k (Finset.mem_range.1 hk)]]
  have hz : znoise m 0 s q i j = 0 := by
    unfold znoise zflat Flat
    rw [hstd]
    by_cases hf : std m q i ≤ 1 / 10 ^ 6
    · rw [if_pos ⟨hf, hf⟩, if_pos ⟨hf, hf⟩, sub_zero]
    · rw [if_neg (fun h => hf h.1), if_neg (fun h => h.elim hf hf), if_neg (fun h => hf h.1)]
      have : zsq m s q i j = 0 := by
        unfold zsq
        apply Finset.sum_eq_zero
        intro k hk
        rw [hstd, hmean, h k (Finset.mem_range.1 hk)]; ring
      rw [this]; simp
  unfold zdist
  rw [hz]; simp

open RoundedZ in
/-- **C86** (partial): without noise elimination, values of `calc_diagonal` exceed `2 √m`, and values of equal subsequences differ from 0,
by no more than the error bound of C85. Missing: that they do not exceed `2 √m` and that values of equal subsequences are (nearly) 0;
this is wrong for data far from 0 (`C86_range_wrong`). -/
theorem C86_range_partial (rnd : ℝ → ℝ) (u η : ℝ) (hr : IsRounding rnd u η) (stat : Stat ℝ)
    (conv : List (Fl ℝ) → List (Fl ℝ) → Except PyErr (List (Fl ℝ))) (m : Nat) (L eμ eσ τ φ : ℝ)
    (hstat : StatWithin m L eμ eσ stat) (hD : devErr u η L eσ < τ ^ 2) (hτ : 1 / 10 ^ 6 < τ)
    (hτ' : rnd (1 / 10 ^ 6) + eσ < τ) (hφ : φ ≤ 1 / 10 ^ 6) (hφ' : φ + eσ ≤ rnd (1 / 10 ^ 6)) (mem : Mem ℝ) (hmem : mem.Ok) (N : Nat)
    (M : Option Nat) (z0 z : Gen ℝ) (st0 : GSt ℝ) (hm : 0 < m) (h0 : Fresh rnd stat mem m 0 z0 N M st0) (ops : List (GOp ℝ))
    (hrun : RoundedZ.run rnd stat conv mem Real.sqrt z0 ops = .ok z) (d : Int) (hd : (st0.run N M ops).Valid m M (.diag d))
    (hb : ∀ x ∈ (st0.run N M ops).s ++ (st0.run N M ops).q, |x| ≤ L) :
    ∃ vs s q, s = (st0.run N M ops).s ∧ q = (st0.run N M ops).q ∧ RoundedZ.calcDiagonal rnd Real.sqrt z d = .ok vs ∧
      ∀ k i j B, k < diagEntries m q.length s.length d → i = (-d).toNat + k → j = d.toNat + k → Clear τ φ (std m (seqOf s) j) →
        Clear τ φ (std m (seqOf q) i) →
        B = znormErr u η (rnd (1 / 10 ^ 12)) m L eμ eσ τ 0 (roundErr u η (k + m + 2) (k + m + k) ((k + m + k : Nat) * L ^ 2)) →
        ∃ y, vs[k]? = some (.fin y) ∧ 0 ≤ y ∧ y ≤ (1 + u) * (2 * √m + √B) + η ∧
          ((s.drop j).take m = (q.drop i).take m → y ≤ (1 + u) * √B + η) := by
  obtain ⟨vs, s, q, hs, hq, h1, h2, h3⟩ := C85_diagonal rnd u η hr stat conv m L eμ eσ τ φ 0 hstat hD hτ hτ' hφ hφ' mem hmem N M z0 z st0 hm h0 ops
    hrun d hd hb
  refine ⟨vs, s, q, hs, hq, h1, fun k i j B hk hi hj cs cq hB => ?_⟩
  obtain ⟨y, y1, y2, y3⟩ := h3 k i j hk hi hj cs cq
  rw [← hB] at y3
  have y4 := (abs_le.1 y3).2
  have hu := hr.u_nonneg
  refine ⟨y, y1, y2, ?_, fun he => ?_⟩
  · have := zdist_range m hm (seqOf s) (seqOf q) i j
    have h5 : (1 + u) * zdist m 0 (seqOf s) (seqOf q) i j ≤ (1 + u) * (2 * √m) := mul_le_mul_of_nonneg_left this (by linarith)
    linarith
  · obtain ⟨v1, v2, v3, v4⟩ := hd
    rw [← hs] at v1 v3
    rw [← hq] at v2 v4
    have hle : i + m ≤ q.length ∧ j + m ≤ s.length := by unfold diagEntries at hk; omega
    have hz := zdist_same m (seqOf s) (seqOf q) i j (fun k hk => by
      have := congrArg (fun l => l[k]?) he
      simp only [List.getElem?_take, if_pos hk, List.getElem?_drop] at this
      rw [seqOf_getElem? s _ (by omega), seqOf_getElem? q _ (by omega)] at this
      exact Option.some.inj this)
    rw [hz] at y4
    linarith

/-- Mean and deviation of two points, each correctly rounded. -/
def twoPoints : RoundedZ.Stat ℚ := ⟨fun w => b64 ((w.getD 0 0 + w.getD 1 0) / 2), fun w => b64 (|w.getD 0 0 - w.getD 1 0| / 2)⟩

/-- `calc_diagonal(0)` of a fresh generator for two series of two points, in `float64`. -/
def zPair (s q : List ℚ) : Except PyErr (List (Fl ℚ)) := do
  let z ← RoundedZ.prepare b64 twoPoints RoundedZ.zeros 0 2 (s.map .fin) (some (q.map .fin))
  RoundedZ.calcDiagonal b64 (fun x => x) z 0

/-- **C86** fails in `float64` for whole numbers of nine digits and subsequences of length 2 (values shown squared; means and deviations
are exact). Two equal subsequences 100000000, 100000001 have the same distance 2 as two opposite ones, instead of 0 and √8. Two
subsequences of the same shape, 200000000, 200000001 and 200000009, 200000010, have the squared distance 132 instead of 0, the
largest possible one being 8. -/
theorem C86_range_wrong :
    zPair [100000000, 100000001] [100000000, 100000001] = .ok [.fin 4] ∧ zPair [100000000, 100000001] [100000001, 100000000] = .ok [.fin 4] ∧
    zPair [200000000, 200000001] [200000009, 200000010] = .ok [.fin 132] := by
  decide +kernel

end Verif
