import Verif.Spec.Valmod
import Verif.Props.ZNorm

/-!
# Lemmas: the lower bound of VALMOD
-/

namespace Verif
open Spec Finset

/-- Sums of squares around the mean of a prefix are at most those of the whole. -/
theorem std_prefix (l L : Nat) (hl : 0 < l) (hL : l ≤ L) (x : Nat → ℝ) (i : Nat) : (l : ℝ) * std l x i ^ 2 ≤ L * std L x i ^ 2 := by
  rw [← sum_centered l hl, ← sum_centered L (by omega)]
  have h1 : ∑ k ∈ range l, (x (i + k) - mean L x i) ^ 2 ≤ ∑ k ∈ range L, (x (i + k) - mean L x i) ^ 2 :=
    Finset.sum_le_sum_of_subset_of_nonneg (Finset.range_mono hL) fun _ _ _ => sq_nonneg _
  have h2 : ∑ k ∈ range l, (x (i + k) - mean L x i) ^ 2 =
      ∑ k ∈ range l, (x (i + k) - mean l x i) ^ 2 + l * (mean l x i - mean L x i) ^ 2 := by
    have : ∀ k ∈ range l, (x (i + k) - mean L x i) ^ 2 = (x (i + k) - mean l x i) ^ 2 +
        (2 * (mean l x i - mean L x i)) * x (i + k) + (mean L x i ^ 2 - mean l x i ^ 2) := fun k _ => by ring
    rw [Finset.sum_congr rfl this, Finset.sum_add_distrib, Finset.sum_add_distrib, ← Finset.mul_sum, sum_eq_mean l hl]
    simp
    ring
  have h3 : 0 ≤ (l : ℝ) * (mean l x i - mean L x i) ^ 2 := by positivity
  linarith

theorem std_ne_zero_of_prefix (l L : Nat) (hl : 0 < l) (hL : l ≤ L) (x : Nat → ℝ) (i : Nat) (h : std l x i ≠ 0) : std L x i ≠ 0 := by
  intro h0
  have := std_prefix l L hl hL x i
  rw [h0] at this
  have h1 : 0 < (l : ℝ) * std l x i ^ 2 := by
    have : (0 : ℝ) < l := by exact_mod_cast hl
    positivity
  simp at this
  linarith

/-- The base of the lower bound: correlation clipped to [0, 1]. -/
noncomputable def boundBase (l : Nat) (s q : Nat → ℝ) (i j : Nat) : ℝ := √(l * (1 - (min (max (corr l s q i j) 0) 1) ^ 2)) * std l s j

theorem clip_sq (x : ℝ) : (min (max x 0) 1) ^ 2 ≤ 1 := by
  have h1 : 0 ≤ min (max x 0) 1 := le_min (le_max_right _ _) zero_le_one
  have h2 : min (max x 0) 1 ≤ 1 := min_le_right _ _
  nlinarith

theorem boundBase_nonneg (l : Nat) (s q : Nat → ℝ) (i j : Nat) : 0 ≤ boundBase l s q i j := mul_nonneg (Real.sqrt_nonneg _) (std_nonneg _ _ _)

theorem boundBase_sq (l : Nat) (s q : Nat → ℝ) (i j : Nat) :
    boundBase l s q i j ^ 2 = l * (1 - (min (max (corr l s q i j) 0) 1) ^ 2) * std l s j ^ 2 := by
  unfold boundBase
  rw [mul_pow, Real.sq_sqrt (mul_nonneg (Nat.cast_nonneg l) (by linarith [clip_sq (corr l s q i j)]))]

theorem zsq_nonneg (m : Nat) (s q : Nat → ℝ) (i j : Nat) : 0 ≤ zsq m s q i j := Finset.sum_nonneg fun _ _ => sq_nonneg _

theorem zsq_prefix (l L : Nat) (hl : 0 < l) (hL : l ≤ L) (s q : Nat → ℝ) (i j : Nat) (hs : std l s j ≠ 0) (hq : std l q i ≠ 0) :
    (l : ℝ) * ((std l s j / std L s j) ^ 2 + (std l q i / std L q i) ^ 2 -
      2 * corr l s q i j * (std l s j / std L s j) * (std l q i / std L q i)) ≤ zsq L s q i j := by
  have hs' := std_ne_zero_of_prefix l L hl hL s j hs
  have hq' := std_ne_zero_of_prefix l L hl hL q i hq
  have hl0 : (l : ℝ) ≠ 0 := by exact_mod_cast hl.ne'
  unfold zsq
  refine le_trans ?_ (Finset.sum_le_sum_of_subset_of_nonneg (Finset.range_mono hL) fun _ _ _ => sq_nonneg _)
  set σ := std L s j
  set τ := std L q i
  set c := (mean l s j - mean L s j) / σ - (mean l q i - mean L q i) / τ with hc
  have h : ∀ k ∈ range l, ((s (j + k) - mean L s j) / σ - (q (i + k) - mean L q i) / τ) ^ 2 =
      (1 / σ ^ 2) * (s (j + k) - mean l s j) ^ 2 + (1 / τ ^ 2) * (q (i + k) - mean l q i) ^ 2 -
        (2 / (σ * τ)) * ((s (j + k) - mean l s j) * (q (i + k) - mean l q i)) + (2 * c / σ) * (s (j + k) - mean l s j) -
        (2 * c / τ) * (q (i + k) - mean l q i) + c ^ 2 := by
    intro k _
    have e : (s (j + k) - mean L s j) / σ - (q (i + k) - mean L q i) / τ =
        (s (j + k) - mean l s j) / σ - (q (i + k) - mean l q i) / τ + c := by rw [hc]; ring
    rw [e]
    field_simp
    ring
  have z : ∀ (x : Nat → ℝ) (a : Nat), ∑ k ∈ range l, (x (a + k) - mean l x a) = 0 := by
    intro x a
    rw [Finset.sum_sub_distrib, sum_eq_mean l hl]
    simp
  have hcov : ∑ k ∈ range l, (s (j + k) - mean l s j) * (q (i + k) - mean l q i) = l * corr l s q i j * (std l q i * std l s j) := by
    unfold corr
    field_simp
  rw [Finset.sum_congr rfl h, Finset.sum_add_distrib, Finset.sum_sub_distrib, Finset.sum_add_distrib, Finset.sum_sub_distrib, Finset.sum_add_distrib,
    ← Finset.mul_sum, ← Finset.mul_sum, ← Finset.mul_sum, ← Finset.mul_sum, ← Finset.mul_sum, z, z, sum_centered l hl, sum_centered l hl, hcov]
  have h0 : 0 ≤ ∑ k ∈ range l, c ^ 2 := Finset.sum_nonneg fun _ _ => sq_nonneg _
  have : (l : ℝ) * ((std l s j / σ) ^ 2 + (std l q i / τ) ^ 2 - 2 * corr l s q i j * (std l s j / σ) * (std l q i / τ)) =
      1 / σ ^ 2 * (l * std l s j ^ 2) + 1 / τ ^ 2 * (l * std l q i ^ 2) - 2 / (σ * τ) * (l * corr l s q i j * (std l q i * std l s j)) := by
    field_simp
  rw [this]
  linarith

/-- The lower bound, squared. -/
theorem bound_sq (l L : Nat) (hl : 0 < l) (hL : l ≤ L) (s q : Nat → ℝ) (i j : Nat) (hs : std l s j ≠ 0) (hq : std l q i ≠ 0) :
    (boundBase l s q i j / std L s j) ^ 2 ≤ zsq L s q i j := by
  have hs' := std_ne_zero_of_prefix l L hl hL s j hs
  have h := zsq_prefix l L hl hL s q i j hs hq
  have h0 := zsq_nonneg L s q i j
  rw [div_pow, boundBase_sq]
  have e : (l : ℝ) * (1 - (min (max (corr l s q i j) 0) 1) ^ 2) * std l s j ^ 2 / std L s j ^ 2 =
      l * ((1 - (min (max (corr l s q i j) 0) 1) ^ 2) * (std l s j / std L s j) ^ 2) := by
    field_simp
  rw [e]
  set x := std l s j / std L s j with hx
  set y := std l q i / std L q i with hy
  have hx0 : 0 ≤ x := div_nonneg (std_nonneg _ _ _) (std_nonneg _ _ _)
  have hy0 : 0 ≤ y := div_nonneg (std_nonneg _ _ _) (std_nonneg _ _ _)
  set r := corr l s q i j
  have hl0 : (0 : ℝ) ≤ l := Nat.cast_nonneg l
  rcases le_total r 0 with hr | hr
  · rw [max_eq_right hr, min_eq_left zero_le_one]
    refine le_trans (mul_le_mul_of_nonneg_left ?_ hl0) h
    nlinarith [mul_nonneg hx0 hy0, mul_nonneg (neg_nonneg.mpr hr) (mul_nonneg hx0 hy0), sq_nonneg y]
  · rw [max_eq_left hr]
    rcases le_total r 1 with hr1 | hr1
    · rw [min_eq_left hr1]
      refine le_trans (mul_le_mul_of_nonneg_left ?_ hl0) h
      nlinarith [sq_nonneg (y - r * x)]
    · rw [min_eq_right hr1]
      simpa using h0

/-- The lower bound is at most `√L`. -/
theorem bound_sq_le (l L : Nat) (hl : 0 < l) (hL : l ≤ L) (s q : Nat → ℝ) (i j : Nat) (hs : std l s j ≠ 0) :
    (boundBase l s q i j / std L s j) ^ 2 ≤ L := by
  have hs' := std_ne_zero_of_prefix l L hl hL s j hs
  have h := std_prefix l L hl hL s j
  rw [div_pow, boundBase_sq, div_le_iff₀ (by positivity)]
  have h1 : 0 ≤ (min (max (corr l s q i j) 0) 1) ^ 2 := sq_nonneg _
  have h2 : 0 ≤ (l : ℝ) * std l s j ^ 2 := by positivity
  nlinarith

/-- The lower bound. -/
theorem bound_le (l L : Nat) (hl : 0 < l) (hL : l ≤ L) (s q : Nat → ℝ) (i j : Nat) (hs : std l s j ≠ 0) (hq : std l q i ≠ 0) :
    boundBase l s q i j / std L s j ≤ √(zsq L s q i j) :=
  Real.le_sqrt_of_sq_le (bound_sq l L hl hL s q i j hs hq)

theorem zdist_gap (m : Nat) (noise : ℝ) (s q : Nat → ℝ) (i j : Nat) : zdist m noise s q i j = 0 ∨ 1 / 10 ^ 6 ≤ zdist m noise s q i j := by
  unfold zdist
  split
  · left; simp
  · rename_i h
    right
    apply Real.le_sqrt_of_sq_le
    push Not at h
    norm_num at h ⊢
    exact h

/-- The lower bound against the reported distance, if subsequences that count as flat are constant. -/
theorem bound_zdist (l L : Nat) (hl : 0 < l) (hL : l ≤ L) (s q : Nat → ℝ) (i j : Nat) (hs : std l s j ≠ 0) (hq : std l q i ≠ 0)
    (h1 : Flat L s j → std L s j = 0) (h2 : Flat L q i → std L q i = 0) :
    boundBase l s q i j / std L s j ≤ zdist L 0 s q i j ∨
      (zdist L 0 s q i j = 0 ∧ boundBase l s q i j / std L s j < 1 / 10 ^ 6) := by
  have hs' : ¬ Flat L s j := fun h => std_ne_zero_of_prefix l L hl hL s j hs (h1 h)
  have hq' : ¬ Flat L q i := fun h => std_ne_zero_of_prefix l L hl hL q i hq (h2 h)
  have hb := bound_sq l L hl hL s q i j hs hq
  rw [zdist_regular L s q i j hq' hs']
  split
  · rename_i h
    right
    refine ⟨by simp, ?_⟩
    apply lt_of_pow_lt_pow_left₀ 2 (by norm_num)
    refine lt_of_le_of_lt hb (lt_of_lt_of_le h ?_)
    norm_num
  · left
    exact bound_le l L hl hL s q i j hs hq

end Verif
