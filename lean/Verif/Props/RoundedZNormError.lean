import Verif.Props.RoundedZNorm
import Verif.Props.RoundedColumn
import Mathlib.Algebra.Order.BigOperators.Ring.Finset

/-!
# C85: accuracy of the z-normalised generator in floating point
-/

namespace Verif
open Spec

section
variable {K : Type} [Field K] [LinearOrder K] [IsStrictOrderedRing K] {rnd : K → K} {u η : K}

theorem rounded_nonneg (hr : IsRounding rnd u η) {A e : K} (hA : 0 ≤ A) (he : 0 ≤ e) : 0 ≤ rounded u η A e := by
  unfold rounded
  have := hr.u_nonneg
  have := hr.η_nonneg
  positivity

theorem rounded_mono (hr : IsRounding rnd u η) {A e e' : K} (h : e ≤ e') : rounded u η A e ≤ rounded u η A e' := by
  unfold rounded
  have := hr.u_nonneg
  have : (1 + u) * e ≤ (1 + u) * e' := mul_le_mul_of_nonneg_left h (by linarith)
  linarith

theorem le_rounded (hr : IsRounding rnd u η) {A e : K} (hA : 0 ≤ A) (he : 0 ≤ e) : e ≤ rounded u η A e := by
  unfold rounded
  have := hr.u_nonneg
  have := hr.η_nonneg
  have : 0 ≤ u * A := by positivity
  have : 0 ≤ u * e := by positivity
  linarith

theorem round_close (hr : IsRounding rnd u η) {v S A e : K} (h : |v - S| ≤ e) (hS : |S| ≤ A) : |rnd v - S| ≤ rounded u η A e := by
  have h1 := hr.err v
  have hu := hr.u_nonneg
  have h2 : |v| ≤ A + e := by
    have := abs_add_le (v - S) S
    rw [sub_add_cancel] at this
    linarith
  have h3 := abs_add_le (rnd v - v) (v - S)
  rw [sub_add_sub_cancel] at h3
  have h4 : u * |v| ≤ u * (A + e) := mul_le_mul_of_nonneg_left h2 hu
  unfold rounded
  linarith

omit [Field K] [IsStrictOrderedRing K] in
theorem abs_mul_le' [Field K] [IsStrictOrderedRing K] {a b A B : K} (ha : |a| ≤ A) (hb : |b| ≤ B) : |a * b| ≤ A * B := by
  rw [abs_mul]
  exact mul_le_mul ha hb (abs_nonneg _) ((abs_nonneg _).trans ha)

theorem prod_close {a a' b b' A B ea eb : K} (ha : |a' - a| ≤ ea) (hb : |b' - b| ≤ eb) (hA : |a| ≤ A) (hB : |b| ≤ B) :
    |a' * b' - a * b| ≤ prodErr A ea B eb := by
  have : a' * b' - a * b = a * (b' - b) + (b * (a' - a) + (a' - a) * (b' - b)) := by ring
  rw [this]
  have h1 := abs_add_le (a * (b' - b)) (b * (a' - a) + (a' - a) * (b' - b))
  have h2 := abs_add_le (b * (a' - a)) ((a' - a) * (b' - b))
  have h3 := abs_mul_le' hA hb
  have h4 := abs_mul_le' hB ha
  have h5 := abs_mul_le' ha hb
  unfold prodErr
  linarith

theorem prodErr_nonneg {A a B b : K} (hA : 0 ≤ A) (ha : 0 ≤ a) (hB : 0 ≤ B) (hb : 0 ≤ b) : 0 ≤ prodErr A a B b := by
  unfold prodErr; positivity

/-- A rounded quotient; `C` bounds the exact quotient. -/
theorem quot_close (hr : IsRounding rnd u η) {a a' b b' ea eb C b0 : K} (ha : |a' - a| ≤ ea) (hb : |b' - b| ≤ eb) (hb0 : 0 < b0) (hb0' : b0 ≤ b')
    (hbp : 0 < b) (hC : |a| ≤ C * b) : |rnd (a' / b') - a / b| ≤ rounded u η C ((ea + C * eb) / b0) := by
  have hb' : 0 < b' := hb0.trans_le hb0'
  have hq : |a / b| ≤ C := by rw [abs_div, abs_of_pos hbp, div_le_iff₀ hbp]; exact hC
  refine round_close hr ?_ hq
  have : a' / b' - a / b = ((a' - a) - a / b * (b' - b)) / b' := by field_simp; ring
  rw [this, abs_div, abs_of_pos hb']
  have h1 : |(a' - a) - a / b * (b' - b)| ≤ ea + C * eb := (abs_sub _ _).trans (add_le_add ha (abs_mul_le' hq hb))
  exact div_le_div₀ ((abs_nonneg _).trans h1) h1 hb0 hb0'

end

/-! ### Facts about exact statistics -/

section
variable {m : Nat} {s q : Nat → ℝ} {i j : Nat} {L : ℝ}

theorem mean_abs_le (hm : 0 < m) (h : ∀ k, k < m → |s (j + k)| ≤ L) : |mean m s j| ≤ L := by
  have hmm : (0 : ℝ) < m := by exact_mod_cast hm
  unfold mean
  rw [abs_div, abs_of_pos hmm, div_le_iff₀ hmm]
  refine (Finset.abs_sum_le_sum_abs _ _).trans ?_
  have := Finset.sum_le_card_nsmul (Finset.range m) (fun k => |s (j + k)|) L (fun k hk => h k (Finset.mem_range.1 hk))
  rw [Finset.card_range, nsmul_eq_mul] at this
  linarith

theorem std_le (hm : 0 < m) (h : ∀ k, k < m → |s (j + k)| ≤ L) : std m s j ≤ L := by
  have hmm : (0 : ℝ) < m := by exact_mod_cast hm
  have hL : 0 ≤ L := (abs_nonneg _).trans (h 0 hm)
  apply le_of_sq_le_sq _ hL
  have h1 := sum_cross m hm s s j j
  have h2 := sum_centered m hm s j
  have h3 : ∑ k ∈ Finset.range m, (s (j + k) - mean m s j) * (s (j + k) - mean m s j) = ∑ k ∈ Finset.range m, (s (j + k) - mean m s j) ^ 2 :=
    Finset.sum_congr rfl fun k _ => by ring
  have h4 : ∑ k ∈ Finset.range m, s (j + k) * s (j + k) ≤ m * L ^ 2 := by
    have := Finset.sum_le_card_nsmul (Finset.range m) (fun k => s (j + k) * s (j + k)) (L ^ 2) (fun k hk => by
      have := abs_mul_le' (h k (Finset.mem_range.1 hk)) (h k (Finset.mem_range.1 hk))
      rw [abs_mul_self] at this
      linarith [sq L])
    rwa [Finset.card_range, nsmul_eq_mul] at this
  have h5 : (0 : ℝ) ≤ m * mean m s j * mean m s j := by rw [mul_assoc]; exact mul_nonneg hmm.le (mul_self_nonneg _)
  have h6 : (m : ℝ) * std m s j ^ 2 ≤ m * L ^ 2 := by linarith
  exact le_of_mul_le_mul_left h6 hmm

/-- The correlation is at most 1. -/
theorem cov_abs_le (hm : 0 < m) :
    |(∑ k ∈ Finset.range m, s (j + k) * q (i + k)) - m * mean m q i * mean m s j| ≤ m * (std m q i * std m s j) := by
  rw [← sum_cross m hm]
  have h := Finset.sum_mul_sq_le_sq_mul_sq (Finset.range m) (fun k => s (j + k) - mean m s j) (fun k => q (i + k) - mean m q i)
  rw [sum_centered m hm, sum_centered m hm] at h
  have hp : 0 ≤ (m : ℝ) * (std m q i * std m s j) := mul_nonneg (Nat.cast_nonneg m) (mul_nonneg (std_nonneg _ _ _) (std_nonneg _ _ _))
  apply abs_le_of_sq_le_sq _ hp
  calc _ ≤ _ := h
    _ = _ := by ring

end

namespace RoundedZ

/-- A statistic is either clearly flat or clearly not. -/
def Clear (τ φ σ : ℝ) : Prop := τ ≤ σ ∨ σ ≤ φ

variable {rnd : ℝ → ℝ} {u η : ℝ}

/-- The formula for two subsequences that are not flat. -/
theorem corr_close (hr : IsRounding rnd u η) (m : Nat) (hm : 0 < m) (s q : Nat → ℝ) (i j : Nat) (L eμ eσ τ E v muq mus stdq stds : ℝ)
    (hs : ∀ k, k < m → |s (j + k)| ≤ L) (hq : ∀ k, k < m → |q (i + k)| ≤ L)
    (hms : |mus - mean m s j| ≤ eμ) (hmq : |muq - mean m q i| ≤ eμ) (hss : |stds - std m s j| ≤ eσ) (hsq : |stdq - std m q i| ≤ eσ)
    (hτ : 0 < τ) (hD : devErr u η L eσ < τ ^ 2) (ts : τ ≤ std m s j) (tq : τ ≤ std m q i)
    (hv : |v - ∑ k ∈ Finset.range m, s (j + k) * q (i + k)| ≤ E) :
    0 < rnd (stdq * stds) ∧
    |rnd (2 * rnd (m - rnd (rnd (v - rnd (rnd (m * muq) * mus)) / rnd (stdq * stds)))) - zsq m s q i j| ≤ corrErr u η m L eμ eσ τ E ∧
    |zsq m s q i j| ≤ 4 * m := by
  have hmm : (0 : ℝ) < m := by exact_mod_cast hm
  have hL : 0 ≤ L := (abs_nonneg _).trans (hs 0 hm)
  have ls := std_le hm hs
  have lq := std_le hm hq
  have ps := hτ.trans_le ts
  have pq := hτ.trans_le tq
  -- the denominator
  have d1 : |rnd (stdq * stds) - std m q i * std m s j| ≤ devErr u η L eσ := by
    refine round_close hr (prod_close hsq hss (by rwa [abs_of_pos pq]) (by rwa [abs_of_pos ps])) ?_
    rw [sq]
    exact abs_mul_le' (by rwa [abs_of_pos pq]) (by rwa [abs_of_pos ps])
  have d2 : τ ^ 2 ≤ std m q i * std m s j := by rw [sq]; exact mul_le_mul tq ts hτ.le pq.le
  have d3 : τ ^ 2 - devErr u η L eσ ≤ rnd (stdq * stds) := by have := (abs_le.1 d1).1; linarith
  -- the numerator
  have n1 : |rnd (m * muq) - m * mean m q i| ≤ rounded u η (m * L) (m * eμ) := by
    refine round_close hr ?_ ?_
    · rw [← mul_sub, abs_mul, abs_of_pos hmm]; exact mul_le_mul_of_nonneg_left hmq hmm.le
    · rw [abs_mul, abs_of_pos hmm]; exact mul_le_mul_of_nonneg_left (mean_abs_le hm hq) hmm.le
  have n2 : |(m : ℝ) * mean m q i| ≤ m * L := by
    rw [abs_mul, abs_of_pos hmm]; exact mul_le_mul_of_nonneg_left (mean_abs_le hm hq) hmm.le
  have n3 : |rnd (rnd (m * muq) * mus) - m * mean m q i * mean m s j| ≤
      rounded u η (m * L ^ 2) (prodErr (m * L) (rounded u η (m * L) (m * eμ)) L eμ) := by
    refine round_close hr (prod_close n1 hms n2 (mean_abs_le hm hs)) ?_
    rw [show (m : ℝ) * L ^ 2 = m * L * L by ring]
    exact abs_mul_le' n2 (mean_abs_le hm hs)
  set X := (∑ k ∈ Finset.range m, s (j + k) * q (i + k)) - m * mean m q i * mean m s j with hX
  have x1 : |X| ≤ m * (std m q i * std m s j) := cov_abs_le hm
  have x2 : |X| ≤ m * L ^ 2 := by
    refine x1.trans (mul_le_mul_of_nonneg_left ?_ hmm.le)
    rw [sq]; exact mul_le_mul lq ls ps.le hL
  have n4 : |rnd (v - rnd (rnd (m * muq) * mus)) - X| ≤
      rounded u η (m * L ^ 2) (E + rounded u η (m * L ^ 2) (prodErr (m * L) (rounded u η (m * L) (m * eμ)) L eμ)) := by
    refine round_close hr ?_ x2
    rw [hX, show ∀ a b c d : ℝ, a - b - (c - d) = (a - c) - (b - d) by intros; ring]
    exact (abs_sub _ _).trans (add_le_add hv n3)
  have hB : 0 < std m q i * std m s j := mul_pos pq ps
  have c1 := quot_close hr (C := m) n4 d1 (sub_pos.2 hD) d3 hB x1
  set C := X / (std m q i * std m s j) with hC
  have c2 : |C| ≤ m := by rw [hC, abs_div, abs_of_pos hB, div_le_iff₀ hB]; exact x1
  have c3 := abs_le.1 c2
  rw [← abs_neg, show ∀ b c : ℝ, -(b - c) = m - b - (m - c) by intros; ring] at c1
  have f1 := round_close hr (A := 2 * m) c1 (by rw [abs_le]; constructor <;> linarith)
  have hz : zsq m s q i j = 2 * (m - C) := (zsq_formula m hm s q i j ps.ne' pq.ne').symm
  have f2 : |2 * ((m : ℝ) - C)| ≤ 4 * m := by rw [abs_le]; constructor <;> linarith
  refine ⟨(sub_pos.2 hD).trans_le d3, ?_, by rw [hz]; exact f2⟩
  rw [hz]
  unfold corrErr
  refine round_close hr ?_ f2
  rw [← mul_sub, abs_mul, abs_of_pos (by norm_num : (0 : ℝ) < 2)]
  exact mul_le_mul_of_nonneg_left f1 (by norm_num)

theorem corrErr_nonneg (hr : IsRounding rnd u η) (m : Nat) {L eμ eσ τ E : ℝ} (hL : 0 ≤ L) (hμ : 0 ≤ eμ) (hσ : 0 ≤ eσ) (hE : 0 ≤ E)
    (hD : devErr u η L eσ < τ ^ 2) : 0 ≤ corrErr u η m L eμ eσ τ E := by
  have h1 : 0 ≤ devErr u η L eσ := rounded_nonneg hr (by positivity) (prodErr_nonneg hL hσ hL hσ)
  have h2 : 0 < τ ^ 2 - devErr u η L eσ := sub_pos.2 hD
  unfold corrErr
  have a1 : 0 ≤ rounded u η (m * L) (m * eμ) := rounded_nonneg hr (by positivity) (by positivity)
  have a2 : 0 ≤ rounded u η (m * L ^ 2) (prodErr (m * L) (rounded u η (m * L) (m * eμ)) L eμ) :=
    rounded_nonneg hr (by positivity) (prodErr_nonneg (by positivity) a1 hL hμ)
  have a3 : 0 ≤ rounded u η (m * L ^ 2) (E + rounded u η (m * L ^ 2) (prodErr (m * L) (rounded u η (m * L) (m * eμ)) L eμ)) :=
    rounded_nonneg hr (by positivity) (add_nonneg hE a2)
  refine rounded_nonneg hr (by positivity) (mul_nonneg (by norm_num) (rounded_nonneg hr (by positivity) (rounded_nonneg hr (by positivity) ?_)))
  exact div_nonneg (add_nonneg a3 (mul_nonneg (Nat.cast_nonneg m) h1)) h2.le

/-- What noise elimination subtracts. -/
theorem noise_close (hr : IsRounding rnd u η) (m : Nat) (L eσ τ noise S S' : ℝ) (h : |S' - S| ≤ eσ) (hτ : 0 < τ) (hS : τ ≤ S) (hL : S ≤ L)
    (hD : devErr u η L eσ < τ ^ 2) :
    0 < rnd (S' * S') ∧
    |rnd (rnd (2 * (m + 1) * rnd (noise * noise)) / rnd (S' * S')) - 2 * (m + 1) * noise ^ 2 / S ^ 2| ≤ noiseErr u η m L eσ τ noise ∧
    |2 * (m + 1) * noise ^ 2 / S ^ 2| ≤ noiseMax m τ noise := by
  have hS0 := hτ.trans_le hS
  have hmm : (0 : ℝ) ≤ m := Nat.cast_nonneg m
  have d1 : |rnd (S' * S') - S ^ 2| ≤ devErr u η L eσ := by
    rw [sq S]
    refine round_close hr (prod_close h h (by rwa [abs_of_pos hS0]) (by rwa [abs_of_pos hS0])) ?_
    rw [sq]
    exact abs_mul_le' (by rwa [abs_of_pos hS0]) (by rwa [abs_of_pos hS0])
  have d2 : τ ^ 2 ≤ S ^ 2 := pow_le_pow_left₀ hτ.le hS 2
  have d3 : τ ^ 2 - devErr u η L eσ ≤ rnd (S' * S') := by have := (abs_le.1 d1).1; linarith
  have a1 : |rnd (noise * noise) - noise ^ 2| ≤ rounded u η (noise ^ 2) 0 :=
    round_close hr (by rw [sq]; simp) (by rw [abs_of_nonneg (sq_nonneg _)])
  have h0 : (0 : ℝ) ≤ 2 * (m + 1) := by positivity
  have hA : 0 ≤ 2 * ((m : ℝ) + 1) * noise ^ 2 := by positivity
  have a2 : |rnd (2 * (m + 1) * rnd (noise * noise)) - 2 * (m + 1) * noise ^ 2| ≤
      rounded u η (2 * (m + 1) * noise ^ 2) (2 * (m + 1) * rounded u η (noise ^ 2) 0) := by
    refine round_close hr ?_ (by rw [abs_of_nonneg hA])
    rw [← mul_sub, abs_mul, abs_of_nonneg h0]
    exact mul_le_mul_of_nonneg_left a1 h0
  have hS2 : 0 < S ^ 2 := by positivity
  have hC : |2 * ((m : ℝ) + 1) * noise ^ 2| ≤ noiseMax m τ noise * S ^ 2 := by
    unfold noiseMax
    rw [abs_of_nonneg hA, div_mul_eq_mul_div, le_div_iff₀ (by positivity)]
    exact mul_le_mul_of_nonneg_left d2 hA
  refine ⟨(sub_pos.2 hD).trans_le d3, quot_close hr a2 d1 (sub_pos.2 hD) d3 hS2 hC, ?_⟩
  rw [abs_div, abs_of_pos hS2, div_le_iff₀ hS2]
  exact hC

theorem noiseMax_nonneg (m : Nat) (τ noise : ℝ) : 0 ≤ noiseMax m τ noise := by unfold noiseMax; positivity

theorem noiseErr_nonneg (hr : IsRounding rnd u η) (m : Nat) {L eσ τ noise : ℝ} (hL : 0 ≤ L) (hσ : 0 ≤ eσ) (hD : devErr u η L eσ < τ ^ 2) :
    0 ≤ noiseErr u η m L eσ τ noise := by
  have h1 : 0 ≤ devErr u η L eσ := rounded_nonneg hr (by positivity) (prodErr_nonneg hL hσ hL hσ)
  have h2 : 0 < τ ^ 2 - devErr u η L eσ := sub_pos.2 hD
  have h3 := noiseMax_nonneg m τ noise
  unfold noiseErr
  refine rounded_nonneg hr h3 (div_nonneg (add_nonneg (rounded_nonneg hr (by positivity) (mul_nonneg (by positivity) (rounded_nonneg hr (by positivity) le_rfl)))
    (mul_nonneg h3 h1)) h2.le)

/-- One entry, given the errors of what it is calculated from. -/
theorem entry_close (hr : IsRounding rnd u η) (m : Nat) (hm : 0 < m) (s q : Nat → ℝ) (i j : Nat) (L eμ eσ τ φ noise E v muq mus stdq stds : ℝ)
    (hs : ∀ k, k < m → |s (j + k)| ≤ L) (hq : ∀ k, k < m → |q (i + k)| ≤ L)
    (hms : |mus - mean m s j| ≤ eμ) (hmq : |muq - mean m q i| ≤ eμ) (hss : |stds - std m s j| ≤ eσ) (hsq : |stdq - std m q i| ≤ eσ)
    (hD : devErr u η L eσ < τ ^ 2) (hτ : 1 / 10 ^ 6 < τ) (hτ' : rnd (1 / 10 ^ 6) + eσ < τ) (hφ : φ ≤ 1 / 10 ^ 6) (hφ' : φ + eσ ≤ rnd (1 / 10 ^ 6))
    (cs : Clear τ φ (std m s j)) (cq : Clear τ φ (std m q i)) (hv : |v - ∑ k ∈ Finset.range m, s (j + k) * q (i + k)| ≤ E) :
    ∃ d, colEntry rnd m noise (decide (stds > rnd flat)) mus stds (.fin v) muq stdq (decide (stdq > rnd flat)) = .fin d ∧ 0 ≤ d ∧
      |d - zdist m noise s q i j ^ 2| ≤ znormErr u η (rnd (1 / 10 ^ 12)) m L eμ eσ τ noise E := by
  have hmm : (0 : ℝ) < m := by exact_mod_cast hm
  have hτ0 : 0 < τ := lt_trans (by positivity) hτ
  have hL : 0 ≤ L := (abs_nonneg _).trans (hs 0 hm)
  have hμ0 : 0 ≤ eμ := (abs_nonneg _).trans hms
  have hσ0 : 0 ≤ eσ := (abs_nonneg _).trans hss
  have hE0 : 0 ≤ E := (abs_nonneg _).trans hv
  have ls := std_le hm hs
  have lq := std_le hm hq
  -- flags
  have flag : ∀ x σ : ℝ, |x - σ| ≤ eσ → Clear τ φ σ → (decide (x > rnd flat) = true ↔ τ ≤ σ) ∧ (σ ≤ 1 / 10 ^ 6 ↔ ¬ τ ≤ σ) := by
    intro x σ h hc
    have h1 := abs_le.1 h
    have hf : (flat : ℝ) = 1 / 10 ^ 6 := rfl
    rw [decide_eq_true_eq, hf]
    rcases hc with hc | hc
    · exact ⟨⟨fun _ => hc, fun _ => by linarith⟩, ⟨fun h => by linarith, fun h => absurd hc h⟩⟩
    · have : ¬ τ ≤ σ := by linarith
      exact ⟨⟨fun h => by linarith, fun h => absurd h this⟩, ⟨fun _ => this, fun _ => hc.trans hφ⟩⟩
  obtain ⟨fs, gs⟩ := flag stds _ hss cs
  obtain ⟨fq, gq⟩ := flag stdq _ hsq cq
  set nzs := decide (stds > rnd flat)
  set nzq := decide (stdq > rnd flat)
  have corr : τ ≤ std m s j → τ ≤ std m q i → _ := fun a b =>
    corr_close hr m hm s q i j L eμ eσ τ E v muq mus stdq stds hs hq hms hmq hss hsq hτ0 hD a b hv
  have hmax : |max stds stdq - max (std m s j) (std m q i)| ≤ eσ := (abs_max_sub_max_le_max _ _ _ _).trans (max_le hss hsq)
  have noi : (nzs || nzq) = true → _ := fun a => noise_close hr m L eσ τ noise _ _ hmax hτ0 (by
      rw [Bool.or_eq_true, fs, fq] at a
      rcases a with a | a
      · exact le_max_of_le_left a
      · exact le_max_of_le_right a) (max_le ls lq) hD
  rw [colEntry_fin _ _ _ _ _ _ _ _ _ _ (fun a b => (corr (fs.1 a) (fq.1 b)).1.ne') (fun a => (noi a).1.ne')]
  have hcn := corrErr_nonneg hr m hL hμ0 hσ0 hE0 hD
  have hnn := noiseErr_nonneg hr m (noise := noise) hL hσ0 hD
  have hNM := noiseMax_nonneg m τ noise
  set F := corrErr u η m L eμ eσ τ E
  set X := noiseErr u η m L eσ τ noise
  set T := noiseMax m τ noise
  -- without noise
  have key1 : ∀ d0 : ℝ, d0 = (if nzs then if nzq then rnd (2 * rnd (m - rnd (rnd (v - rnd (rnd (m * muq) * mus)) / rnd (stdq * stds)))) else (m : ℝ)
      else if nzq then (m : ℝ) else 0) → |d0 - zflat m s q i j| ≤ F ∧ |zflat m s q i j| ≤ 4 * m := by
    intro d0 hd0
    unfold zflat Flat
    rw [gs, gq, ← fs, ← fq]
    cases hns : nzs <;> cases hnq : nzq <;> rw [hns, hnq] at hd0
    · simp at hd0; subst hd0; simp; exact hcn
    · simp at hd0; subst hd0; simp only [Bool.false_eq_true, not_false_eq_true, and_true, not_true, or_true, if_true, if_false, sub_self, abs_zero]
      exact ⟨hcn, by rw [abs_of_pos hmm]; linarith⟩
    · simp at hd0; subst hd0; simp only [Bool.false_eq_true, not_false_eq_true, and_false, not_true, true_or, if_true, if_false, sub_self, abs_zero]
      exact ⟨hcn, by rw [abs_of_pos hmm]; linarith⟩
    · simp only [if_true] at hd0
      simp only [not_true, and_self, or_self, if_false]
      rw [hd0]
      exact (corr (fs.1 hns) (fq.1 hnq)).2
  -- with noise
  have key2 : |raw rnd m noise v muq stdq mus stds nzs nzq - znoise m noise s q i j| ≤ rounded u η (4 * m + T) (F + X) := by
    obtain ⟨k1, k2⟩ := key1 _ rfl
    have hF : F ≤ rounded u η (4 * m + T) (F + X) := (le_add_of_nonneg_right hnn).trans (le_rounded hr (by positivity) (add_nonneg hcn hnn))
    unfold raw
    simp only
    set d0 := (if nzs then if nzq then rnd (2 * rnd (m - rnd (rnd (v - rnd (rnd (m * muq) * mus)) / rnd (stdq * stds)))) else (m : ℝ)
      else if nzq then (m : ℝ) else 0)
    unfold znoise Flat
    rw [gs, gq, ← fs, ← fq]
    by_cases hn : noise = 0
    · rw [if_neg (by simpa using hn), hn]
      simp only [ne_eq, OfNat.ofNat_ne_zero, not_false_eq_true, zero_pow, mul_zero, zero_div, ite_self, sub_zero]
      exact k1.trans hF
    · rw [if_pos hn]
      by_cases hb : (nzs || nzq) = true
      · rw [if_pos hb, if_neg (by
          rw [Bool.or_eq_true] at hb; rintro ⟨a, b⟩
          rcases hb with h | h
          · exact b h
          · exact a h)]
        obtain ⟨-, n2, n3⟩ := noi hb
        refine round_close hr ?_ ?_
        · rw [show ∀ a b c d : ℝ, a - b - (c - d) = (a - c) - (b - d) by intros; ring]
          exact (abs_sub _ _).trans (add_le_add k1 n2)
        · exact (abs_sub _ _).trans (add_le_add k2 n3)
      · rw [if_neg hb, if_pos (by
          rw [Bool.or_eq_true, not_or] at hb; exact ⟨hb.2, hb.1⟩), sub_zero]
        exact k1.trans hF
  have heps0 := eps_nonneg (K := ℝ) hr
  have heps : rnd (eps : ℝ) = rnd (1 / 10 ^ 12) := rfl
  set r := raw rnd m noise v muq stdq mus stds nzs nzq
  set B := rounded u η (4 * m + T) (F + X)
  have hB : 0 ≤ B := (abs_nonneg _).trans key2
  have hk := abs_le.1 key2
  refine ⟨_, rfl, ?_, ?_⟩
  · split
    · exact le_rfl
    · rename_i h; exact heps0.trans (not_lt.1 h)
  · have m1 := le_max_left (1 / 10 ^ 12 : ℝ) (rnd (1 / 10 ^ 12))
    have m2 := le_max_right (1 / 10 ^ 12 : ℝ) (rnd (1 / 10 ^ 12))
    have hp : (0 : ℝ) < 1 / 10 ^ 12 := by positivity
    unfold zdist znormErr
    rw [Real.sq_sqrt (by
      split
      · exact le_rfl
      · rename_i h; exact hp.le.trans (not_lt.1 h)), heps]
    rw [heps] at heps0
    split <;> split
    · rw [sub_zero, abs_zero]; linarith
    · rename_i h1 h2
      rw [not_lt] at h2
      rw [zero_sub, abs_neg, abs_of_nonneg (by linarith)]
      linarith
    · rename_i h1 h2
      rw [not_lt] at h1
      rw [sub_zero, abs_of_nonneg (by linarith)]
      linarith
    · exact key2.trans (by linarith)

/-! ### Dot products -/

section
variable {K : Type} [Field K] [LinearOrder K] [IsStrictOrderedRing K] {rnd : K → K} {u η : K}

/-- What is assumed of `scipy.signal.convolve` here: on data of absolute value at most `L` it returns the dot products of all windows
with an error of at most `E`. -/
def ConvWithin (m : Nat) (L E : K) (conv : List (Fl K) → List (Fl K) → Except PyErr (List (Fl K))) : Prop :=
  ∀ x w : List K, w.length = m → m ≤ x.length → (∀ y ∈ x ++ w, |y| ≤ L) →
    ∃ vs : List K, conv (x.map .fin) (w.map .fin) = .ok (vs.map .fin) ∧ vs.length = x.length + 1 - m ∧
      ∀ i v, vs[i]? = some v → |v - ∑ k ∈ Finset.range m, seqOf x (i + k) * seqOf w k| ≤ E

omit [IsStrictOrderedRing K] in
theorem ConvWithin.rel {m : Nat} {L E : K} {conv : List (Fl K) → List (Fl K) → Except PyErr (List (Fl K))} (h : ConvWithin m L E conv)
    (x w : List K) (hw : w.length = m) (hx : m ≤ x.length) (hb : ∀ y ∈ x ++ w, |y| ≤ L) :
    Rounded.FullRel m (fun v w x => |v - pairSum (· * ·) w x| ≤ E) conv x w := by
  obtain ⟨vs, h1, h2, h3⟩ := h x w hw hx hb
  refine ⟨_, h1, ?_⟩
  unfold Rounded.Row
  rw [List.forall₂_iff_get]
  have hwl : (windows m x).length = x.length + 1 - m := by simp
  refine ⟨by rw [List.length_map, h2, hwl], ?_⟩
  intro i hi hi'
  rw [List.length_map] at hi
  have hi2 : i + m ≤ x.length := by rw [hwl] at hi'; omega
  have hwin : (windows m x).get ⟨i, hi'⟩ = (x.drop i).take m := by
    have := windows_getElem? m x i
    rw [if_pos (by omega), List.getElem?_eq_getElem hi'] at this
    simpa using this
  refine ⟨vs[i], by simp, ?_⟩
  rw [hwin]
  have := pairSum_windows (fun a b : K => a * b) m x w 0 i hi2 (by omega)
  rw [List.drop_zero, show w.take m = w from List.take_of_length_le (by omega)] at this
  show |vs[i] - pairSum (fun a b : K => a * b) ((x.drop i).take m) w| ≤ E
  rw [this]
  simpa using h3 i vs[i] (List.getElem?_eq_getElem hi)

theorem seqOf_abs_le {L : K} {l : List K} (h : ∀ y ∈ l, |y| ≤ L) (i : Nat) (hi : i < l.length) : |seqOf l i| ≤ L :=
  h _ (Rounded.seqOf_mem l i hi)

theorem dot_abs_le (m : Nat) (s q : List K) (i j : Nat) (L : K) (hs : ∀ y ∈ s, |y| ≤ L) (hq : ∀ y ∈ q, |y| ≤ L) (hj : j + m ≤ s.length)
    (hi : i + m ≤ q.length) : |∑ k ∈ Finset.range m, seqOf s (j + k) * seqOf q (i + k)| ≤ m * L ^ 2 := by
  refine (Finset.abs_sum_le_sum_abs _ _).trans ?_
  have := Finset.sum_le_card_nsmul (Finset.range m) (fun k => |seqOf s (j + k) * seqOf q (i + k)|) (L ^ 2) (fun k hk => by
    have := Finset.mem_range.1 hk
    rw [sq]
    exact abs_mul_le' (seqOf_abs_le hs _ (by omega)) (seqOf_abs_le hq _ (by omega)))
  rwa [Finset.card_range, nsmul_eq_mul] at this

theorem dotColumnErr_le (hr : IsRounding rnd u η) (m : Nat) {L E : K} (hE : 0 ≤ E) (n : Nat) : E ≤ dotColumnErr u η m L E n := by
  unfold dotColumnErr
  have h1 : 1 ≤ (1 + u) ^ (2 * n) := one_le_pow₀ (by linarith [hr.u_nonneg])
  have h0 : 0 ≤ rounded u η (L ^ 2) 0 := rounded_nonneg hr (by positivity) le_rfl
  have h2 : 0 ≤ rounded u η (m * L ^ 2) (rounded u η (m * L ^ 2) (rounded u η (L ^ 2) 0) + rounded u η (L ^ 2) 0) :=
    rounded_nonneg hr (by positivity) (add_nonneg (rounded_nonneg hr (by positivity) h0) h0)
  have h3 : (0 : K) ≤ n * rounded u η (m * L ^ 2) (rounded u η (m * L ^ 2) (rounded u η (L ^ 2) 0) + rounded u η (L ^ 2) 0) :=
    mul_nonneg (Nat.cast_nonneg n) h2
  nlinarith

theorem ConvWithin.steps (hr : IsRounding rnd u η) {m : Nat} (hm : 0 < m) {L E : K} (hE : 0 ≤ E)
    {conv : List (Fl K) → List (Fl K) → Except PyErr (List (Fl K))} (h : ConvWithin m L E conv) (s q : List K) (hs : m ≤ s.length)
    (hq : m ≤ q.length) (hb : ∀ y ∈ s ++ q, |y| ≤ L) :
    Steps rnd conv (fun v w x => |v - pairSum (· * ·) w x| ≤ E) (fun n v w x => |v - pairSum (· * ·) w x| ≤ dotColumnErr u η m L E n) m s q := by
  have bs : ∀ y ∈ s, |y| ≤ L := fun y hy => hb y (List.mem_append_left _ hy)
  have bq : ∀ y ∈ q, |y| ≤ L := fun y hy => hb y (List.mem_append_right _ hy)
  refine ⟨fun n hn => h.rel _ _ (by rw [List.length_take]; omega) (by rw [lastN_length]; omega) ?_,
    fun j hj => h.rel _ _ (by rw [List.length_take, List.length_drop]; omega) hq ?_, ?_, ?_, ?_⟩
  · intro y hy
    rcases List.mem_append.1 hy with hy | hy
    · exact bs y (List.mem_of_mem_drop hy)
    · exact bq y (List.mem_of_mem_take hy)
  · intro y hy
    rcases List.mem_append.1 hy with hy | hy
    · exact bq y hy
    · exact bs y (List.mem_of_mem_drop (List.mem_of_mem_take hy))
  · intro n j i v hj hi hv
    rw [pairSum_comm _ (fun a b => mul_comm a b)] at hv
    exact hv.trans (dotColumnErr_le hr m hE n)
  · intro n j v hj hv
    exact hv.trans (dotColumnErr_le hr m hE n)
  · intro n j i v hj hi hv
    rw [pairSum_windows _ m s q i j (by omega) (by omega)] at hv
    rw [pairSum_windows _ m s q (i + 1) (j + 1) (by omega) (by omega)]
    have hstep : ∑ k ∈ Finset.range m, seqOf s (j + 1 + k) * seqOf q (i + 1 + k) =
        (∑ k ∈ Finset.range m, seqOf s (j + k) * seqOf q (i + k)) - seqOf s j * seqOf q i + seqOf s (j + m) * seqOf q (i + m) := by
      have h1 := Finset.sum_range_succ (fun k => seqOf s (j + k) * seqOf q (i + k)) m
      have h2 := Finset.sum_range_succ' (fun k => seqOf s (j + k) * seqOf q (i + k)) m
      have h3 : ∑ k ∈ Finset.range m, seqOf s (j + 1 + k) * seqOf q (i + 1 + k) = ∑ k ∈ Finset.range m, seqOf s (j + (k + 1)) * seqOf q (i + (k + 1)) :=
        Finset.sum_congr rfl fun k _ => by rw [show j + 1 + k = j + (k + 1) by omega, show i + 1 + k = i + (k + 1) by omega]
      simp only [Nat.add_zero] at h2
      rw [h3]
      linear_combination h1 - h2
    have p1 : |rnd (seqOf s j * seqOf q i) - seqOf s j * seqOf q i| ≤ rounded u η (L ^ 2) 0 :=
      round_close hr (by simp) (by rw [sq]; exact abs_mul_le' (seqOf_abs_le bs _ (by omega)) (seqOf_abs_le bq _ (by omega)))
    have p2 : |rnd (seqOf s (j + m) * seqOf q (i + m)) - seqOf s (j + m) * seqOf q (i + m)| ≤ rounded u η (L ^ 2) 0 :=
      round_close hr (by simp) (by rw [sq]; exact abs_mul_le' (seqOf_abs_le bs _ (by omega)) (seqOf_abs_le bq _ (by omega)))
    have hmid : |(∑ k ∈ Finset.range m, seqOf s (j + k) * seqOf q (i + k)) - seqOf s j * seqOf q i| ≤ m * L ^ 2 := by
      obtain ⟨m, rfl⟩ := Nat.exists_eq_succ_of_ne_zero hm.ne'
      rw [Finset.sum_range_succ']
      simp only [Nat.add_zero, add_sub_cancel_right]
      have := dot_abs_le m s q (i + 1) (j + 1) L bs bq (by omega) (by omega)
      have h3 : ∑ k ∈ Finset.range m, seqOf s (j + 1 + k) * seqOf q (i + 1 + k) = ∑ k ∈ Finset.range m, seqOf s (j + (k + 1)) * seqOf q (i + (k + 1)) :=
        Finset.sum_congr rfl fun k _ => by rw [show j + 1 + k = j + (k + 1) by omega, show i + 1 + k = i + (k + 1) by omega]
      rw [h3] at this
      push_cast
      nlinarith [sq_nonneg L]
    set A : K := m * L ^ 2
    set f := rounded u η (L ^ 2) 0
    set e := dotColumnErr u η m L E n with he
    have q1 : |rnd (v - rnd (seqOf s j * seqOf q i)) - ((∑ k ∈ Finset.range m, seqOf s (j + k) * seqOf q (i + k)) - seqOf s j * seqOf q i)| ≤
        rounded u η A (e + f) := by
      refine round_close hr ?_ hmid
      rw [show ∀ a b c d : K, a - b - (c - d) = (a - c) - (b - d) by intros; ring]
      exact (abs_sub _ _).trans (add_le_add hv p1)
    have q2 : |rnd (rnd (v - rnd (seqOf s j * seqOf q i)) + rnd (seqOf s (j + m) * seqOf q (i + m))) -
        ∑ k ∈ Finset.range m, seqOf s (j + 1 + k) * seqOf q (i + 1 + k)| ≤ rounded u η A (rounded u η A (e + f) + f) := by
      refine round_close hr ?_ (dot_abs_le m s q (i + 1) (j + 1) L bs bq (by omega) (by omega))
      rw [hstep, show ∀ a b c d : K, a + b - (c + d) = (a - c) + (b - d) by intros; ring]
      exact (abs_add_le _ _).trans (add_le_add q1 p2)
    refine q2.trans ?_
    have hf : 0 ≤ f := rounded_nonneg hr (by positivity) le_rfl
    have hA : 0 ≤ A := by positivity
    have hb : 0 ≤ rounded u η A (rounded u η A f + f) := rounded_nonneg hr hA (add_nonneg (rounded_nonneg hr hA hf) hf)
    have hlin : rounded u η A (rounded u η A (e + f) + f) = (1 + u) ^ 2 * e + rounded u η A (rounded u η A f + f) := by unfold rounded; ring
    rw [hlin]
    have h1 : 1 ≤ (1 + u) ^ (2 * (n + 1)) := one_le_pow₀ (by linarith [hr.u_nonneg])
    have h2 : (1 + u) ^ 2 * e = (1 + u) ^ (2 * (n + 1)) * (E + n * rounded u η A (rounded u η A f + f)) := by
      rw [he]; unfold dotColumnErr
      rw [← mul_assoc, ← pow_add]; congr 2; ring
    rw [h2]
    unfold dotColumnErr
    push_cast
    nlinarith

/-- The rounded running sum of products is close to the exact one. -/
theorem pre_close (hr : IsRounding rnd u η) (q s : List K) (i0 j0 n : Nat) (L : K) (hq : i0 + n ≤ q.length) (hs : j0 + n ≤ s.length)
    (bs : ∀ y ∈ s, |y| ≤ L) (bq : ∀ y ∈ q, |y| ≤ L) (k : Nat) (hk : k ≤ n) :
    rnd (Rounded.pre rnd (products rnd ((q.drop i0).take n) ((s.drop j0).take n)) k) = Rounded.pre rnd (products rnd ((q.drop i0).take n) ((s.drop j0).take n)) k ∧
    Close u η (k + 1) k (k * L ^ 2) (Rounded.pre rnd (products rnd ((q.drop i0).take n) ((s.drop j0).take n)) k)
      (∑ x ∈ Finset.range k, seqOf s (j0 + x) * seqOf q (i0 + x)) := by
  set l := products rnd ((q.drop i0).take n) ((s.drop j0).take n) with hl
  have hlen : l.length = n := by rw [hl, products]; simp; omega
  induction k with
  | zero => exact ⟨by rw [Rounded.pre_zero, hr.zero], ⟨by simp, by rw [Rounded.pre_zero]; simp [roundErr]⟩⟩
  | succ k ih =>
    obtain ⟨h1, h2⟩ := ih (by omega)
    have g1 : ∀ (l : List K) (i : Nat), i + n ≤ l.length → ((l.drop i).take n)[k]? = some (seqOf l (i + k)) := by
      intro l i hi
      rw [List.getElem?_take, if_pos (by omega), List.getElem?_drop, seqOf_getElem? l _ (by omega)]
    have he : l[k]'(by omega) = rnd (seqOf q (i0 + k) * seqOf s (j0 + k)) := by
      have : l[k]? = some (rnd (seqOf q (i0 + k) * seqOf s (j0 + k))) := by
        rw [hl, products, List.getElem?_zipWith, g1 q i0 hq, g1 s j0 hs]
      rw [List.getElem?_eq_getElem (by omega)] at this
      exact Option.some.inj this
    rw [Rounded.pre_succ l k (by omega), he, Finset.sum_range_succ]
    refine ⟨hr.idem _, ?_⟩
    have c1 := (Close.exact (u := u) (η := η) (seqOf q (i0 + k) * seqOf s (j0 + k))).round hr
    have c2 := c1.mono hr.u_nonneg hr.η_nonneg (k' := k + 1) (n' := 1) (A' := L ^ 2) (by omega) (by omega)
      (by rw [sq]; exact abs_mul_le' (seqOf_abs_le bq _ (by omega)) (seqOf_abs_le bs _ (by omega)))
    have := Close.roundAdd hr (h2.add c2) h1 (hr.idem _)
    rw [mul_comm (seqOf s (j0 + k))]
    push_cast
    rwa [add_mul, one_mul]

end

/-- What is assumed of `np.mean` and `np.std` here: on windows of values of absolute value at most `L` the errors are at most `eμ` and `eσ`. -/
def StatWithin (m : Nat) (L eμ eσ : ℝ) (stat : Stat ℝ) : Prop :=
  ∀ w : List ℝ, w.length = m → (∀ y ∈ w, |y| ≤ L) → |stat.mean w - mean m (seqOf w) 0| ≤ eμ ∧ |stat.std w - std m (seqOf w) 0| ≤ eσ

theorem StatWithin.at {m : Nat} {L eμ eσ : ℝ} {stat : Stat ℝ} (h : StatWithin m L eμ eσ stat) (s : List ℝ) (j : Nat) (hj : j + m ≤ s.length)
    (hs : ∀ y ∈ s, |y| ≤ L) : |stat.mean ((s.drop j).take m) - mean m (seqOf s) j| ≤ eμ ∧ |stat.std ((s.drop j).take m) - std m (seqOf s) j| ≤ eσ := by
  have hl : ((s.drop j).take m).length = m := by rw [List.length_take, List.length_drop]; omega
  have := h ((s.drop j).take m) hl (fun y hy => hs y (List.mem_of_mem_drop (List.mem_of_mem_take hy)))
  have e1 := npMean_window ((s.drop j).take m) m 0 (by omega)
  have e2 := npStd_window ((s.drop j).take m) m 0 (by omega)
  rw [List.drop_zero, List.take_of_length_le (by omega)] at e1 e2
  rwa [← e1, ← e2, npMean_window s m j hj, npStd_window s m j hj] at this

/-- The returned value for one pair. -/
theorem value_close {rnd : ℝ → ℝ} {u η : ℝ} (hr : IsRounding rnd u η) {m : Nat} (hm : 0 < m) {L eμ eσ τ φ noise E : ℝ} {stat : Stat ℝ}
    (hstat : StatWithin m L eμ eσ stat) (hD : devErr u η L eσ < τ ^ 2) (hτ : 1 / 10 ^ 6 < τ) (hτ' : rnd (1 / 10 ^ 6) + eσ < τ)
    (hφ : φ ≤ 1 / 10 ^ 6) (hφ' : φ + eσ ≤ rnd (1 / 10 ^ 6)) (s q : List ℝ) (i j : Nat) (hj : j + m ≤ s.length) (hi : i + m ≤ q.length)
    (hs : ∀ y ∈ s, |y| ≤ L) (hq : ∀ y ∈ q, |y| ≤ L) (cs : Clear τ φ (std m (seqOf s) j)) (cq : Clear τ φ (std m (seqOf q) i)) (v : ℝ)
    (hv : |v - ∑ k ∈ Finset.range m, seqOf s (j + k) * seqOf q (i + k)| ≤ E) :
    ∃ y, Rounded.fl rnd (Fl.sqrtF Real.sqrt (colValue rnd stat m noise v ((s.drop j).take m) ((q.drop i).take m))) = .fin y ∧ 0 ≤ y ∧
      |y - zdist m noise (seqOf s) (seqOf q) i j| ≤ (1 + u) * √(znormErr u η (rnd (1 / 10 ^ 12)) m L eμ eσ τ noise E) +
        u * zdist m noise (seqOf s) (seqOf q) i j + η := by
  obtain ⟨a1, a2⟩ := hstat.at s j hj hs
  obtain ⟨b1, b2⟩ := hstat.at q i hi hq
  obtain ⟨d, h1, h2, h3⟩ := entry_close hr m hm (seqOf s) (seqOf q) i j L eμ eσ τ φ noise E v _ _ _ _
    (fun k hk => seqOf_abs_le hs _ (by omega)) (fun k hk => seqOf_abs_le hq _ (by omega)) a1 b1 a2 b2 hD hτ hτ' hφ hφ' cs cq hv
  refine ⟨rnd (√d), ?_, hr.nonneg (Real.sqrt_nonneg d), ?_⟩
  · unfold colValue
    rw [h1, Fl.sqrtF_fin _ _ h2]; rfl
  · have hz : 0 ≤ zdist m noise (seqOf s) (seqOf q) i j := Real.sqrt_nonneg _
    have := sqrt_close hr d _ _ h2 (sq_nonneg (zdist m noise (seqOf s) (seqOf q) i j)) h3
    rwa [Real.sqrt_sq hz] at this

end RoundedZ

open RoundedZ in
/-- **C85**: in floating point arithmetic without overflow (any rounding function as described by `IsRounding`), for windows of values of
absolute value at most `L`, if `np.mean`, `np.std` and `convolve` have errors of at most `eμ`, `eσ` and `E`: whatever calls were made
(valid and `Safe`), none raises and `calc_column(c)` returns one value per query subsequence. For every pair of subsequences that are
clearly flat (deviation at most `φ`) or clearly not flat (at least `τ`), the value is a number within an explicit bound of
the z-normalised distance; the bound grows with the number of columns calculated before, up to the number of the row. -/
theorem C85_column (rnd : ℝ → ℝ) (u η : ℝ) (hr : IsRounding rnd u η) (stat : Stat ℝ)
    (conv : List (Fl ℝ) → List (Fl ℝ) → Except PyErr (List (Fl ℝ))) (m : Nat) (L eμ eσ E τ φ noise : ℝ) (B : Nat → ℝ) (hE : 0 ≤ E)
    (hstat : StatWithin m L eμ eσ stat) (hconv : ConvWithin m L E conv) (hD : devErr u η L eσ < τ ^ 2) (hτ : 1 / 10 ^ 6 < τ)
    (hτ' : rnd (1 / 10 ^ 6) + eσ < τ) (hφ : φ ≤ 1 / 10 ^ 6) (hφ' : φ + eσ ≤ rnd (1 / 10 ^ 6)) (mem : Mem ℝ) (hmem : mem.Ok) (N : Nat)
    (M : Option Nat) (z0 : Gen ℝ) (st0 : GSt ℝ) (hm : 0 < m) (h0 : Fresh rnd stat mem m noise z0 N M st0) (ops : List (GOp ℝ)) (c : Nat)
    (hok : st0.All N M (fun st op => st.Valid m M op ∧ st.Safe op ∧ ∀ x ∈ st.s ++ st.q, |x| ≤ L) (ops ++ [.column c]))
    (hB : ∀ i, B i = znormErr u η (rnd (1 / 10 ^ 12)) m L eμ eσ τ noise (dotColumnErr u η m L E (min (Rounded.columns ops + 1) i))) :
    ∃ z z' vs s q, s = (st0.run N M ops).s ∧ q = (st0.run N M ops).q ∧ RoundedZ.run rnd stat conv mem Real.sqrt z0 ops = .ok z ∧
      RoundedZ.calcColumn rnd conv mem.fl Real.sqrt z c = .ok (z', vs) ∧ vs.length = q.length + 1 - m ∧
      ∀ i, i + m ≤ q.length → Clear τ φ (std m (seqOf s) c) → Clear τ φ (std m (seqOf q) i) → ∃ y, vs[i]? = some (.fin y) ∧ 0 ≤ y ∧
        |y - zdist m noise (seqOf s) (seqOf q) i c| ≤ (1 + u) * √(B i) + u * zdist m noise (seqOf s) (seqOf q) i c + η := by
  have hb := (GSt.All.split hok).2.1
  obtain ⟨z, z', vs, h1, h2, h3, h4⟩ := RoundedZ.column_after (sq := Real.sqrt) hr.idem hmem m noise N M z0 st0 hm h0 ops c
    (Eucl.GSt.All.mono (fun st op h => ⟨h.1, h.2.1, fun c' hc' => by
      have := h.1; rw [hc'] at this
      exact hconv.steps hr hm hE st.s st.q (by have := this.1; omega) this.2 h.2.2⟩) st0 _ hok)
  refine ⟨z, z', vs, _, _, rfl, rfl, h1, h2, h3, fun i hi cs cq => ?_⟩
  obtain ⟨v, h5, h6⟩ := h4 i hi
  rw [pairSum_windows _ m _ _ i c hb.1.1 hi] at h6
  obtain ⟨y, y1, y2, y3⟩ := value_close hr hm hstat (noise := noise) hD hτ hτ' hφ hφ' _ _ i c hb.1.1 hi
    (fun x hx => hb.2.2 x (List.mem_append_left _ hx)) (fun x hx => hb.2.2 x (List.mem_append_right _ hx)) cs cq v h6
  exact ⟨y, by rw [h5, y1], y2, by rw [hB]; exact y3⟩

open RoundedZ in
/-- **C85** for `calc_diagonal(d)`: the error of a value depends on its position on the diagonal. -/
theorem C85_diagonal (rnd : ℝ → ℝ) (u η : ℝ) (hr : IsRounding rnd u η) (stat : Stat ℝ)
    (conv : List (Fl ℝ) → List (Fl ℝ) → Except PyErr (List (Fl ℝ))) (m : Nat) (L eμ eσ τ φ noise : ℝ)
    (hstat : StatWithin m L eμ eσ stat) (hD : devErr u η L eσ < τ ^ 2) (hτ : 1 / 10 ^ 6 < τ)
    (hτ' : rnd (1 / 10 ^ 6) + eσ < τ) (hφ : φ ≤ 1 / 10 ^ 6) (hφ' : φ + eσ ≤ rnd (1 / 10 ^ 6)) (mem : Mem ℝ) (hmem : mem.Ok) (N : Nat)
    (M : Option Nat) (z0 z : Gen ℝ) (st0 : GSt ℝ) (hm : 0 < m) (h0 : Fresh rnd stat mem m noise z0 N M st0) (ops : List (GOp ℝ))
    (hrun : RoundedZ.run rnd stat conv mem Real.sqrt z0 ops = .ok z) (d : Int) (hd : (st0.run N M ops).Valid m M (.diag d))
    (hb : ∀ x ∈ (st0.run N M ops).s ++ (st0.run N M ops).q, |x| ≤ L) :
    ∃ vs s q, s = (st0.run N M ops).s ∧ q = (st0.run N M ops).q ∧ RoundedZ.calcDiagonal rnd Real.sqrt z d = .ok vs ∧
      vs.length = diagEntries m q.length s.length d ∧
      ∀ k i j, k < diagEntries m q.length s.length d → i = (-d).toNat + k → j = d.toNat + k → Clear τ φ (std m (seqOf s) j) →
        Clear τ φ (std m (seqOf q) i) → ∃ y, vs[k]? = some (.fin y) ∧ 0 ≤ y ∧
          |y - zdist m noise (seqOf s) (seqOf q) i j| ≤
            (1 + u) * √(znormErr u η (rnd (1 / 10 ^ 12)) m L eμ eσ τ noise (roundErr u η (k + m + 2) (k + m + k) ((k + m + k : Nat) * L ^ 2))) +
            u * zdist m noise (seqOf s) (seqOf q) i j + η := by
  have bs : ∀ y ∈ (st0.run N M ops).s, |y| ≤ L := fun x hx => hb x (List.mem_append_left _ hx)
  have bq : ∀ y ∈ (st0.run N M ops).q, |y| ≤ L := fun x hx => hb x (List.mem_append_right _ hx)
  obtain ⟨n, hn, hmn, hent, h⟩ := RoundedZ.calcDiagonal_values (sq := Real.sqrt) hr.idem z m noise N M _ d
    (run_base z0 z m noise N M st0 ops (h0.base hmem hm).1 hrun) hd
  obtain ⟨v1, v2, v3, v4⟩ := hd
  refine ⟨_, _, _, rfl, rfl, h, by simp, fun k i j hk hi hj cs cq => ?_⟩
  subst hi hj
  have hq : (-d).toNat + n ≤ (st0.run N M ops).q.length := by omega
  have hs : d.toNat + n ≤ (st0.run N M ops).s.length := by omega
  obtain ⟨a1, a2⟩ := RoundedZ.pre_close hr _ _ (-d).toNat d.toNat n L hq hs bs bq (k + m) (by omega)
  obtain ⟨b1, b2⟩ := RoundedZ.pre_close hr _ _ (-d).toNat d.toNat n L hq hs bs bq k (by omega)
  have hc := Close.roundSub hr (a2.sub (b2.mono hr.u_nonneg hr.η_nonneg (k' := k + m + 1) (by omega) le_rfl le_rfl)) a1 b1
  have hsum : (∑ x ∈ Finset.range (k + m), seqOf (st0.run N M ops).s (d.toNat + x) * seqOf (st0.run N M ops).q ((-d).toNat + x)) -
      ∑ x ∈ Finset.range k, seqOf (st0.run N M ops).s (d.toNat + x) * seqOf (st0.run N M ops).q ((-d).toNat + x) =
      ∑ x ∈ Finset.range m, seqOf (st0.run N M ops).s (d.toNat + k + x) * seqOf (st0.run N M ops).q ((-d).toNat + k + x) := by
    rw [Finset.sum_range_add, add_sub_cancel_left]
    exact Finset.sum_congr rfl fun x _ => by rw [Nat.add_assoc, Nat.add_assoc]
  rw [hsum] at hc
  have herr := hc.err
  rw [show ((k + m : Nat) : ℝ) * L ^ 2 + (k : ℝ) * L ^ 2 = ((k + m + k : Nat) : ℝ) * L ^ 2 by push_cast; ring] at herr
  obtain ⟨y, y1, y2, y3⟩ := value_close hr hm hstat (noise := noise) hD hτ hτ' hφ hφ' _ _ ((-d).toNat + k) (d.toNat + k) (by omega) (by omega)
    bs bq cs cq _ herr
  refine ⟨y, ?_, y2, y3⟩
  rw [List.getElem?_map, List.getElem?_range hk, Option.map_some, diagValue_eq]
  exact congrArg some y1

end Verif
