import Verif.Props.ValmodNoise

/-!
# C59: VALMOD on series with nearly flat subsequences

A subsequence with a deviation of at most 1e-6 counts as flat, and two flat subsequences have distance 0 whatever their shapes. The lower bounds of `valmod.py` compare
the shapes of all subsequences that are not exactly constant, so they are no bounds for such pairs.
-/

namespace Verif
open Spec
namespace Valmod
open ZN

/-- The series of the counterexample: its last seven values are nearly the same. -/
noncomputable def _root_.Verif.exTail : List ℝ := [2, 1, 0, 1, 0, 2 / 10 ^ 7, -2 / 10 ^ 7, -1 / 10 ^ 7, 0, 2 / 10 ^ 7, 2 / 10 ^ 7]

theorem exTail_var3 (i : Nat) (v : ℝ) (h : (i, v) ∈ [(0, (2 / 3 : ℝ)), (1, 2 / 9), (2, 2 / 9), (3, 8333331666667 / 37500000000000), (4, 1 / 37500000000000),
    (5, 13 / 450000000000000), (6, 1 / 150000000000000), (7, 7 / 450000000000000), (8, 1 / 112500000000000)]) : var 3 (seqOf exTail) i = v := by
  simp only [List.mem_cons, Prod.mk.injEq, List.not_mem_nil, or_false] at h
  rcases h with ⟨rfl, rfl⟩ | ⟨rfl, rfl⟩ | ⟨rfl, rfl⟩ | ⟨rfl, rfl⟩ | ⟨rfl, rfl⟩ | ⟨rfl, rfl⟩ | ⟨rfl, rfl⟩ | ⟨rfl, rfl⟩ | ⟨rfl, rfl⟩ <;>
    norm_num [var, mean, seqOf, exTail, Finset.sum_range_succ]

theorem exTail_var4 (i : Nat) (v : ℝ) (h : (i, v) ∈ [(0, (1 / 2 : ℝ)), (1, 1 / 4), (2, 74999990000003 / 400000000000000), (3, 9375000000001 / 50000000000000),
    (4, 7 / 320000000000000), (5, 7 / 320000000000000), (6, 7 / 320000000000000), (7, 27 / 1600000000000000)]) : var 4 (seqOf exTail) i = v := by
  simp only [List.mem_cons, Prod.mk.injEq, List.not_mem_nil, or_false] at h
  rcases h with ⟨rfl, rfl⟩ | ⟨rfl, rfl⟩ | ⟨rfl, rfl⟩ | ⟨rfl, rfl⟩ | ⟨rfl, rfl⟩ | ⟨rfl, rfl⟩ | ⟨rfl, rfl⟩ | ⟨rfl, rfl⟩ <;>
    norm_num [var, mean, seqOf, exTail, Finset.sum_range_succ]

theorem exTail_length : exTail.length = 11 := rfl

theorem std_ne_of_var {m : Nat} {x : Nat → ℝ} {i : Nat} {v : ℝ} (h : var m x i = v) (hv : 0 < v) : std m x i ≠ 0 := by
  rw [std, h]
  exact (Real.sqrt_pos.mpr hv).ne'

theorem exTail_std3 (i : Nat) (h : i < 9) : std 3 (seqOf exTail) i ≠ 0 := by
  have : i = 0 ∨ i = 1 ∨ i = 2 ∨ i = 3 ∨ i = 4 ∨ i = 5 ∨ i = 6 ∨ i = 7 ∨ i = 8 := by omega
  rcases this with rfl | rfl | rfl | rfl | rfl | rfl | rfl | rfl | rfl
  · exact std_ne_of_var (exTail_var3 0 _ (by simp; rfl)) (by norm_num)
  · exact std_ne_of_var (exTail_var3 1 (2 / 9) (by simp)) (by norm_num)
  · exact std_ne_of_var (exTail_var3 2 (2 / 9) (by simp)) (by norm_num)
  · exact std_ne_of_var (exTail_var3 3 (8333331666667 / 37500000000000) (by simp)) (by norm_num)
  · exact std_ne_of_var (exTail_var3 4 (1 / 37500000000000) (by simp)) (by norm_num)
  · exact std_ne_of_var (exTail_var3 5 (13 / 450000000000000) (by simp)) (by norm_num)
  · exact std_ne_of_var (exTail_var3 6 (1 / 150000000000000) (by simp)) (by norm_num)
  · exact std_ne_of_var (exTail_var3 7 (7 / 450000000000000) (by simp)) (by norm_num)
  · exact std_ne_of_var (exTail_var3 8 (1 / 112500000000000) (by simp)) (by norm_num)

/-- Of the subsequences of length 4 those from 4 on count as flat. -/
theorem exTail_flat (i : Nat) (h : i < 8) : Flat 4 (seqOf exTail) i ↔ 4 ≤ i := by
  have key : ∀ v : ℝ, var 4 (seqOf exTail) i = v → (Flat 4 (seqOf exTail) i ↔ v ≤ (1 / 10 ^ 6) ^ 2) := by
    intro v hv
    rw [Flat, std, hv, Real.sqrt_le_left (by norm_num)]
  have : i = 0 ∨ i = 1 ∨ i = 2 ∨ i = 3 ∨ i = 4 ∨ i = 5 ∨ i = 6 ∨ i = 7 := by omega
  rcases this with rfl | rfl | rfl | rfl | rfl | rfl | rfl | rfl
  · rw [key _ (exTail_var4 0 (1 / 2) (by simp))]; norm_num
  · rw [key _ (exTail_var4 1 (1 / 4) (by simp))]; norm_num
  · rw [key _ (exTail_var4 2 (74999990000003 / 400000000000000) (by simp))]; norm_num
  · rw [key _ (exTail_var4 3 (9375000000001 / 50000000000000) (by simp))]; norm_num
  · rw [key _ (exTail_var4 4 (7 / 320000000000000) (by simp))]; norm_num
  · rw [key _ (exTail_var4 5 (7 / 320000000000000) (by simp))]; norm_num
  · rw [key _ (exTail_var4 6 (7 / 320000000000000) (by simp))]; norm_num
  · rw [key _ (exTail_var4 7 (27 / 1600000000000000) (by simp))]; norm_num

theorem exTail_cov_pos (q i : Nat) (v : ℝ) (h : (q, i, v) ∈ [(0, 3, (9999998 / 30000000 : ℝ)), (0, 4, 2 / 30000000), (1, 7, 1 / 90000000)]) :
    cov 3 (seqOf exTail) q i = v := by
  simp only [List.mem_cons, Prod.mk.injEq, List.not_mem_nil, or_false] at h
  rcases h with ⟨rfl, rfl, rfl⟩ | ⟨rfl, rfl, rfl⟩ | ⟨rfl, rfl, rfl⟩ <;> norm_num [cov, mean, seqOf, exTail, Finset.sum_range_succ]

theorem exTail_cov_neg (q i : Nat) (h : (q, i) ∈ [(6, 3), (7, 3), (8, 3), (1, 4), (7, 4), (8, 4), (0, 7), (2, 7), (3, 7), (4, 7)]) : cov 3 (seqOf exTail) q i ≤ 0 := by
  simp only [List.mem_cons, Prod.mk.injEq, List.not_mem_nil, or_false] at h
  rcases h with ⟨rfl, rfl⟩ | ⟨rfl, rfl⟩ | ⟨rfl, rfl⟩ | ⟨rfl, rfl⟩ | ⟨rfl, rfl⟩ | ⟨rfl, rfl⟩ | ⟨rfl, rfl⟩ | ⟨rfl, rfl⟩ | ⟨rfl, rfl⟩ | ⟨rfl, rfl⟩ <;>
    norm_num [cov, mean, seqOf, exTail, Finset.sum_range_succ]

/-- The pair with the smallest base in columns 3, 4 and 7. -/
def Chosen (q i : Nat) : Prop := (q = 0 ∧ i = 3) ∨ (q = 0 ∧ i = 4) ∨ (q = 1 ∧ i = 7)

theorem exTail_base_sq (q i : Nat) (h : Chosen q i) : boundBase 3 (seqOf exTail) (seqOf exTail) q i ^ 2 < 3 * var 3 (seqOf exTail) i ∧
    (i = 4 → boundBase 3 (seqOf exTail) (seqOf exTail) q i ^ 2 = 6 / 10 ^ 14) ∧ (i = 7 → boundBase 3 (seqOf exTail) (seqOf exTail) q i ^ 2 = 45 / 10 ^ 15) := by
  have v0 := exTail_var3 0 (2 / 3) (by simp)
  have v1 := exTail_var3 1 (2 / 9) (by simp)
  have v3 := exTail_var3 3 (8333331666667 / 37500000000000) (by simp)
  have v4 := exTail_var3 4 (1 / 37500000000000) (by simp)
  have v7 := exTail_var3 7 (7 / 450000000000000) (by simp)
  rcases h with ⟨rfl, rfl⟩ | ⟨rfl, rfl⟩ | ⟨rfl, rfl⟩
  · have c := exTail_cov_pos 0 3 (9999998 / 30000000) (by simp)
    rw [boundBase_sq_pos 3 _ 0 3 (by rw [c]; norm_num) (by rw [v0]; norm_num) (by rw [v3]; norm_num) (by rw [c, v0, v3]; norm_num), c, v0, v3]
    norm_num
  · have c := exTail_cov_pos 0 4 (2 / 30000000) (by simp)
    rw [boundBase_sq_pos 3 _ 0 4 (by rw [c]; norm_num) (by rw [v0]; norm_num) (by rw [v4]; norm_num) (by rw [c, v0, v4]; norm_num), c, v0, v4]
    norm_num
  · have c := exTail_cov_pos 1 7 (1 / 90000000) (by simp)
    rw [boundBase_sq_pos 3 _ 1 7 (by rw [c]; norm_num) (by rw [v1]; norm_num) (by rw [v7]; norm_num) (by rw [c, v1, v7]; norm_num), c, v1, v7]
    norm_num

theorem exTail_base_lt (q i q' : Nat) (h : Chosen q i) (hq : q' < 9) (hf : q' + 2 < i ∨ i + 2 < q') (hne : q' ≠ q) :
    boundBase 3 (seqOf exTail) (seqOf exTail) q i < boundBase 3 (seqOf exTail) (seqOf exTail) q' i := by
  obtain ⟨h1, -, -⟩ := exTail_base_sq q i h
  have h2 : boundBase 3 (seqOf exTail) (seqOf exTail) q' i ^ 2 = 3 * var 3 (seqOf exTail) i := by
    refine boundBase_sq_neg 3 _ q' i (exTail_cov_neg q' i ?_)
    rcases h with ⟨rfl, rfl⟩ | ⟨rfl, rfl⟩ | ⟨rfl, rfl⟩
    · have : q' = 6 ∨ q' = 7 ∨ q' = 8 := by omega
      rcases this with rfl | rfl | rfl <;> simp
    · have : q' = 1 ∨ q' = 7 ∨ q' = 8 := by omega
      rcases this with rfl | rfl | rfl <;> simp
    · have : q' = 0 ∨ q' = 2 ∨ q' = 3 ∨ q' = 4 := by omega
      rcases this with rfl | rfl | rfl | rfl <;> simp
  exact lt_of_pow_lt_pow_left₀ 2 (boundBase_nonneg _ _ _ _ _) (by rw [h2]; exact h1)

/-- The lists of columns 3, 4 and 7 at length 3 with room for one entry. -/
theorem exTail_entry (m i q : Nat) (hqi : Chosen q i) (es : List Entry) (h : ListAt exTail 3 2 1 m i es) :
    ∃ e, es = [e] ∧ e.q = q ∧ e.base = .fin (boundBase 3 (seqOf exTail) (seqOf exTail) q i) := by
  have hlen := exTail_length
  have hc := hqi
  unfold Chosen at hc
  have hi : std 3 (seqOf exTail) i ≠ 0 := exTail_std3 i (by omega)
  have hq : std 3 (seqOf exTail) q ≠ 0 := exTail_std3 q (by omega)
  have hfar : FarPair exTail.length 3 2 q i := by
    refine ⟨?_, ?_, ?_⟩
    all_goals first | rw [hlen]; omega | omega
  obtain ⟨e, rfl⟩ : ∃ e, es = [e] := by
    have hc := h.count
    match es, hc, h with
    | [], _, h =>
      obtain ⟨e, he, -⟩ := h.all (.inl (by simp)) hi q hfar hq
      simp at he
    | [e], _, _ => exact ⟨e, rfl⟩
    | _ :: _ :: _, hc, _ => simp at hc; omega
  have hq' : e.q = q := by
    rcases h.rest hi q hfar hq with ⟨e', he', h1⟩ | h1
    · rw [List.mem_singleton.mp he'] at h1
      exact h1
    · have h2 := h1 e (by simp)
      obtain ⟨-, i2⟩ := h.idx e (by simp)
      rw [hlen] at i2
      by_contra hne
      by_cases hf : e.q + 2 < i ∨ i + 2 < e.q
      · rw [h.base e (by simp) hf, baseOf, if_neg (exTail_std3 _ (by omega)), Fl.fin_le_fin] at h2
        exact absurd (exTail_base_lt q i e.q hqi (by omega) hf hne) (not_lt.mpr h2)
      · rw [h.near e (by simp) hf] at h2
        exact absurd (lt_of_le_of_lt h2 (Fl.fin_lt_pinf _)) (lt_irrefl _)
  refine ⟨e, rfl, hq', ?_⟩
  rw [h.base e (by simp) (by rw [hq']; exact hfar.2.2), hq', baseOf, if_neg hq]

/-! ### Distances at length 4 -/

theorem exTail_one_flat {q i : Nat} (hq : q < 8) (hi : i < 8) (h : ¬ (4 ≤ q ↔ 4 ≤ i)) : D 0 exTail 4 q i = 2 := by
  rw [D, zdist_one_flat 4 (by norm_num) _ _ _ _ (by rwa [exTail_flat q hq, exTail_flat i hi]), show ((4 : Nat) : ℝ) = 2 ^ 2 by norm_num, Real.sqrt_sq (by norm_num)]

theorem exTail_missed : D 0 exTail 4 4 7 = 0 := zdist_flat _ _ _ _ _ _ ((exTail_flat 4 (by norm_num)).mpr le_rfl) ((exTail_flat 7 (by norm_num)).mpr (by norm_num))

theorem exTail_regular : 0 < D 0 exTail 4 0 3 ∧ D 0 exTail 4 0 3 ^ 2 < 12 / 5 := by
  have f0 : ¬ Flat 4 (seqOf exTail) 0 := by rw [exTail_flat 0 (by norm_num)]; norm_num
  have f3 : ¬ Flat 4 (seqOf exTail) 3 := by rw [exTail_flat 3 (by norm_num)]; norm_num
  have v0 := exTail_var4 0 (1 / 2) (by simp)
  have v3 := exTail_var4 3 (9375000000001 / 50000000000000) (by simp)
  have n0 := std_ne_of_var v0 (by norm_num)
  have n3 := std_ne_of_var v3 (by norm_num)
  have s0 : std 4 (seqOf exTail) 0 ^ 2 = 1 / 2 := by rw [std, Real.sq_sqrt (var_nonneg _ _ _), v0]
  have s3 : std 4 (seqOf exTail) 3 ^ 2 = 9375000000001 / 50000000000000 := by rw [std, Real.sq_sqrt (var_nonneg _ _ _), v3]
  have p0 : 0 < std 4 (seqOf exTail) 0 * std 4 (seqOf exTail) 3 :=
    mul_pos (lt_of_le_of_ne (std_nonneg _ _ _) n0.symm) (lt_of_le_of_ne (std_nonneg _ _ _) n3.symm)
  have hz : zsq 4 (seqOf exTail) (seqOf exTail) 0 3 = 8 * (1 - 4999999 / 20000000 / (std 4 (seqOf exTail) 0 * std 4 (seqOf exTail) 3)) := by
    rw [← zsq_formula 4 (by norm_num) _ _ _ _ n3 n0]
    have : (∑ k ∈ Finset.range 4, seqOf exTail (3 + k) * seqOf exTail (0 + k)) - ((4 : Nat) : ℝ) * mean 4 (seqOf exTail) 0 * mean 4 (seqOf exTail) 3 = 4999999 / 5000000 := by
      norm_num [mean, seqOf, exTail, Finset.sum_range_succ]
    rw [this]
    push_cast
    field_simp
    ring
  set u := std 4 (seqOf exTail) 0 * std 4 (seqOf exTail) 3 with hu
  have hu2 : u ^ 2 = 1 / 2 * (9375000000001 / 50000000000000) := by rw [hu, mul_pow, s0, s3]
  have u1 : u < 31 / 100 := by nlinarith
  have u2 : 3 / 10 < u := by nlinarith
  have c1 : 4999999 / 20000000 / u < 9 / 10 := by rw [div_lt_iff₀ p0]; linarith
  have c2 : 7 / 10 < 4999999 / 20000000 / u := by rw [lt_div_iff₀ p0]; linarith
  have hn : znoise 4 0 (seqOf exTail) (seqOf exTail) 0 3 = zsq 4 (seqOf exTail) (seqOf exTail) 0 3 := by
    simp only [znoise, zflat, f0, f3, and_self, or_self, if_false]
    norm_num
  have hlow : ¬ zsq 4 (seqOf exTail) (seqOf exTail) 0 3 < 1 / 10 ^ 12 := by
    rw [hz, not_lt]
    have : (1 : ℝ) / 10 ^ 12 ≤ 8 / 10 := by norm_num
    linarith
  constructor
  · rw [D, zdist, hn, if_neg hlow]
    refine Real.sqrt_pos.mpr ?_
    rw [hz]
    linarith
  · rw [D, zdist, hn, if_neg hlow, Real.sq_sqrt (zsq_nonneg _ _ _ _ _), hz]
    linarith

/-- All pairs that are far enough apart have a positive distance, except 4 and 7. -/
theorem exTail_pos {q i : Nat} (h : FarPair exTail.length 4 2 q i) (hq : i ≠ 4 ∨ q ≠ 7) (hi : i ≠ 7 ∨ q ≠ 4) : 0 < D 0 exTail 4 q i := by
  obtain ⟨h1, h2, h3⟩ := h
  rw [exTail_length] at h1 h2
  by_cases hf : 4 ≤ q ↔ 4 ≤ i
  · have hcase : (q = 0 ∧ i = 3) ∨ (q = 3 ∧ i = 0) := by omega
    rcases hcase with ⟨rfl, rfl⟩ | ⟨rfl, rfl⟩
    · exact exTail_regular.1
    · rw [D, zdist_symm]; exact exTail_regular.1
  · rw [exTail_one_flat (by omega) (by omega) hf]
    norm_num

/-- The lower bounds of columns 4 and 7 are too large. -/
theorem exTail_lb (q i : Nat) (h : Chosen q i) (hi : i ≠ 3) : D 0 exTail 4 0 3 < boundBase 3 (seqOf exTail) (seqOf exTail) q i / std 4 (seqOf exTail) i ∧
    boundBase 3 (seqOf exTail) (seqOf exTail) q i / std 4 (seqOf exTail) i < 2 := by
  obtain ⟨-, b4, b7⟩ := exTail_base_sq q i h
  have hb := boundBase_nonneg 3 (seqOf exTail) (seqOf exTail) q i
  have hs := std_nonneg 4 (seqOf exTail) i
  have hd := exTail_regular.2
  have hsq : 12 / 5 < (boundBase 3 (seqOf exTail) (seqOf exTail) q i / std 4 (seqOf exTail) i) ^ 2 ∧
      (boundBase 3 (seqOf exTail) (seqOf exTail) q i / std 4 (seqOf exTail) i) ^ 2 < 4 := by
    have hvar : std 4 (seqOf exTail) i ^ 2 = var 4 (seqOf exTail) i := Real.sq_sqrt (var_nonneg _ _ _)
    rw [div_pow, hvar]
    rcases h with ⟨rfl, rfl⟩ | ⟨rfl, rfl⟩ | ⟨rfl, rfl⟩
    · exact absurd rfl hi
    · rw [b4 rfl, exTail_var4 4 (7 / 320000000000000) (by simp)]; norm_num
    · rw [b7 rfl, exTail_var4 7 (27 / 1600000000000000) (by simp)]; norm_num
  have hr : 0 ≤ boundBase 3 (seqOf exTail) (seqOf exTail) q i / std 4 (seqOf exTail) i := div_nonneg hb hs
  constructor
  · exact lt_of_pow_lt_pow_left₀ 2 hr (hd.trans hsq.1)
  · exact lt_of_pow_lt_pow_left₀ 2 (by norm_num) (hsq.2.trans_le (by norm_num))

/-! ### The round for length 4 -/

/-- What the best pair looks like all the way through length 4: it never is the pair of subsequences 4 and 7. -/
def FlatMissed (best : Best) : Prop :=
  (best.dist = .pinf ∧ best.idx = none) ∨ ∃ q i, FarPair exTail.length 4 2 q i ∧ best.dist = .fin (D 0 exTail 4 q i) ∧ best.idx = some (q, i) ∧
    (i ≠ 4 ∨ q ≠ 7) ∧ (i ≠ 7 ∨ q ≠ 4)

/-- The pair of subsequences 0 and 3 has been found, or will be before columns 4 and 7 are considered. -/
def Ready (best : Best) (L : List (Nat × Fl ℝ)) : Prop :=
  best.dist ≤ .fin (D 0 exTail 4 0 3) ∨ ∃ L1 w L2, L = L1 ++ (3, w) :: L2 ∧ w ≤ .fin (D 0 exTail 4 0 3) ∧ ∀ c ∈ L1, c.1 ≠ 4 ∧ c.1 ≠ 7

theorem Ready.append {best : Best} {L : List (Nat × Fl ℝ)} (h : Ready best L) (c : Nat × Fl ℝ) : Ready best (L ++ [c]) := by
  rcases h with h | ⟨L1, w, L2, h1, h2, h3⟩
  · exact Or.inl h
  · exact Or.inr ⟨L1, w, L2 ++ [c], by simp [h1], h2, h3⟩

theorem Ready.better {best best' : Best} {L : List (Nat × Fl ℝ)} (h : Ready best L) (hb : best'.dist ≤ best.dist) : Ready best' L := by
  rcases h with h | h
  · exact Or.inl (hb.trans h)
  · exact Or.inr h

/-- State after the columns below `t`. -/
structure TailPass (t : Nat) (lists0 : List (List Entry)) (p : Pass) : Prop where
  todo : ∀ i, t ≤ i → p.lists[i]? = lists0[i]?
  missed : FlatMissed p.best
  first : 3 < t → Ready p.best p.invalid
  inv : ∀ c ∈ p.invalid, c.1 < t ∧ (∃ w, c.2 = .fin w) ∧ (c.1 = 4 ∨ c.1 = 7 → .fin (D 0 exTail 4 0 3) ≤ c.2)
  few : p.invalid.length ≤ t
  some' : 4 < t → p.invalid ≠ []

theorem FlatMissed.ne_nan {best : Best} (h : FlatMissed best) : best.dist ≠ .nan := by
  rcases h with h1 | ⟨q, i, -, h1, -⟩
  · rw [h1.1]; simp
  · rw [h1]; simp

theorem TailPass.column {t : Nat} {lists0 : List (List Entry)} {p : Pass} (h : TailPass t lists0 p) (z : ZN) (hz : z.Base 4 0 exTail.length none exTail exTail)
    (ht : t < 8) (h0 : ∃ es, lists0[t]? = some es ∧ ListAt exTail 3 2 1 3 t es) :
    ∃ p', Pass.column z (exTail.map .fin) 4 8 2 p t = .ok p' ∧ TailPass (t + 1) lists0 p' := by
  obtain ⟨es, e1, e2⟩ := h0
  have hlen := exTail_length
  have e3 : p.lists[t]? = some es := by rw [h.todo t le_rfl, e1]
  obtain ⟨sc, es', s1, s2, -⟩ := scan_list (noise := 0) exTail 3 2 4 t z hz (by norm_num) (by norm_num) (by rw [hlen]; omega) 1 es e2 es (fun _ h => h) []
    ⟨.pinf, none, .fin (-1)⟩ ⟨Or.inl ⟨rfl, rfl⟩, by simp, Or.inl rfl, by simp⟩
  rw [List.nil_append] at s2
  have s1' : Scan.list z (exTail.map .fin) 4 8 2 t ⟨.pinf, none, .fin (-1)⟩ es = .ok (sc, es') := s1
  have hlists : ∀ p' : Pass, p'.lists = p.lists → ∀ i, t + 1 ≤ i → (p'.lists.set t es')[i]? = lists0[i]? := by
    intro p' hp' i hi
    rw [hp', List.getElem?_set_ne (by omega), h.todo i (by omega)]
  obtain ⟨w, hw⟩ : ∃ w, sc.lb = .fin w := by
    rcases s2.lbHit with h1 | ⟨e', -, -, v, -, h1⟩ <;> exact ⟨_, h1⟩
  -- columns 3, 4 and 7
  have hspec : ∀ q, Chosen q t → sc.dist = .fin (D 0 exTail 4 q t) ∧
      sc.lb = .fin (boundBase 3 (seqOf exTail) (seqOf exTail) q t / std 4 (seqOf exTail) t) ∧ sc.entry = some (q, t) := by
    intro q hq
    obtain ⟨e, rfl, h1, h2⟩ := exTail_entry 3 t q hq es e2
    unfold Chosen at hq
    have hfar : FarPair exTail.length 4 2 e.q t := by
      rw [h1]
      refine ⟨?_, ?_, ?_⟩
      all_goals first | rw [hlen]; omega | omega
    have hhit : sc.dist = .fin (D 0 exTail 4 q t) ∧ sc.entry = some (q, t) := by
      rcases s2.hit with h3 | ⟨e', h3, -, h4, h5⟩
      · have := s2.low e (by simp) hfar
        rw [h3.1] at this
        exact absurd (lt_of_le_of_lt this (Fl.fin_lt_pinf _)) (lt_irrefl _)
      · rw [List.mem_singleton.mp h3, h1] at h4 h5
        exact ⟨h4, h5⟩
    refine ⟨hhit.1, ?_, hhit.2⟩
    have hl := s2.lbLow e (by simp) hfar _ h2
    rcases s2.lbHit with h3 | ⟨e', h3, -, v, h4, h5⟩
    · rw [h3, Fl.fin_le_fin] at hl
      have := div_nonneg (boundBase_nonneg 3 (seqOf exTail) (seqOf exTail) q t) (std_nonneg 4 (seqOf exTail) t)
      linarith
    · rw [List.mem_singleton.mp h3, h2, Fl.fin.injEq] at h4
      rw [h5, h4]
  have hcand : sc.dist.ltF sc.lb = true → ∃ q, FarPair exTail.length 4 2 q t ∧ sc.dist = .fin (D 0 exTail 4 q t) ∧ sc.entry = some (q, t) ∧
      (t ≠ 4 ∨ q ≠ 7) ∧ (t ≠ 7 ∨ q ≠ 4) := by
    intro hlt
    have hlt' := ((Fl.ltF_iff _ _).mp hlt).1
    rcases s2.hit with h3 | ⟨e, h3, h4, h5, h6⟩
    · rw [h3.1, hw] at hlt'
      simp at hlt'
    · refine ⟨e.q, h4, h5, h6, ?_, ?_⟩
      · by_contra hc
        obtain ⟨-, -, h7⟩ := hspec 0 (by unfold Chosen; omega)
        rw [h6, Option.some.injEq, Prod.mk.injEq] at h7
        omega
      · by_contra hc
        obtain ⟨-, -, h7⟩ := hspec 1 (by unfold Chosen; omega)
        rw [h6, Option.some.injEq, Prod.mk.injEq] at h7
        omega
  have hfour : t = 4 → ¬ sc.dist.ltF sc.lb = true := by
    intro h4
    obtain ⟨g1, g2, -⟩ := hspec 0 (by unfold Chosen; omega)
    subst h4
    rw [Fl.ltF_iff, g1, g2, Fl.fin_lt_fin, exTail_one_flat (by norm_num) (by norm_num) (by norm_num)]
    have := (exTail_lb 0 4 (by unfold Chosen; omega) (by norm_num)).2
    exact fun hc => absurd hc.1 (not_lt.mpr this.le)
  have hthree : t = 3 → sc.dist = .fin (D 0 exTail 4 0 3) := by
    intro h3
    obtain ⟨g1, -, -⟩ := hspec 0 (by unfold Chosen; omega)
    rw [g1, h3]
  unfold Pass.column
  rw [pyGet_at _ _ _ e3]
  simp only [bind, Except.bind]
  rw [s1']
  simp only
  by_cases hlt : sc.dist.ltF sc.lb = true
  · obtain ⟨q, p2, p3, p4, p5⟩ := hcand hlt
    have hsome : 4 < t + 1 → p.invalid ≠ [] := fun h2 => by
      by_cases h3 : t = 4
      · exact absurd hlt (hfour h3)
      · exact h.some' (by omega)
    by_cases hb : sc.dist.ltF p.best.dist = true
    · have hb' := ((Fl.ltF_iff _ _).mp hb).1
      have hj : p.judge t sc = .ok { p with best := ⟨sc.dist, some (q, t)⟩ } := by
        unfold Pass.judge
        rw [if_pos hlt, if_pos hb, p4]
      rw [hj]
      refine ⟨_, rfl, hlists _ rfl, Or.inr ⟨q, t, p2, p3, rfl, p5⟩, fun h3 => ?_, fun c hc => ?_, ?_, hsome⟩
      · by_cases h0 : t = 3
        · exact Or.inl (hthree h0).le
        · exact (h.first (by omega)).better hb'.le
      · obtain ⟨i1, i2⟩ := h.inv c hc
        exact ⟨by omega, i2⟩
      · exact h.few.trans (by omega)
    · have hj : p.judge t sc = .ok p := by
        unfold Pass.judge
        rw [if_pos hlt, if_neg hb]
      rw [hj]
      have hb' : p.best.dist ≤ sc.dist := (Fl.ltF_false_iff _ _ h.missed.ne_nan).mp (by simpa using hb)
      refine ⟨_, rfl, hlists _ rfl, h.missed, fun h3 => ?_, fun c hc => ?_, ?_, hsome⟩
      · by_cases h0 : t = 3
        · exact Or.inl (hb'.trans (hthree h0).le)
        · exact h.first (by omega)
      · obtain ⟨i1, i2⟩ := h.inv c hc
        exact ⟨by omega, i2⟩
      · exact h.few.trans (by omega)
  · have hj : p.judge t sc = .ok { p with invalid := p.invalid ++ [(t, sc.lb)] } := by
      unfold Pass.judge
      rw [if_neg hlt]
    rw [hj]
    refine ⟨_, rfl, hlists _ rfl, h.missed, fun h3 => ?_, fun c hc => ?_, ?_, fun _ => by simp⟩
    · by_cases h0 : t = 3
      · refine Or.inr ⟨p.invalid, sc.lb, [], by simp [h0], ?_, fun c hc => ?_⟩
        · rw [← hthree h0]
          exact (Fl.ltF_false_iff _ _ (by rw [hw]; simp)).mp (by simpa using hlt)
        · obtain ⟨i1, -⟩ := h.inv c hc
          omega
      · exact (h.first (by omega)).append _
    · rcases List.mem_append.mp hc with hc | hc
      · obtain ⟨i1, i2⟩ := h.inv c hc
        exact ⟨by omega, i2⟩
      · rw [List.mem_singleton.mp hc]
        refine ⟨by simp, ⟨w, hw⟩, fun h4 => ?_⟩
        simp only at h4 ⊢
        rcases h4 with h4 | h4
        · obtain ⟨-, g2, -⟩ := hspec 0 (by unfold Chosen; omega)
          rw [g2, Fl.fin_le_fin]
          exact (exTail_lb 0 t (by unfold Chosen; omega) (by omega)).1.le
        · obtain ⟨-, g2, -⟩ := hspec 1 (by unfold Chosen; omega)
          rw [g2, Fl.fin_le_fin]
          exact (exTail_lb 1 t (by unfold Chosen; omega) (by omega)).1.le
    · simp only [List.length_append, List.length_cons, List.length_nil]
      have := h.few
      omega

theorem tail_recalc (mem : Mem) (hmem : mem.Ok) (L : List (Nat × Fl ℝ))
    (hL : ∀ c ∈ L, c.1 < 8 ∧ (∃ w, c.2 = .fin w) ∧ (c.1 = 4 ∨ c.1 = 7 → .fin (D 0 exTail 4 0 3) ≤ c.2)) (st : ZN × Best) (hg : GenOk 0 st.1 4 exTail)
    (hb : FlatMissed st.2) (hd : Ready st.2 L) :
    ∃ st', L.foldlM (recalcColumn mem 2) st = .ok st' ∧ FlatMissed st'.2 ∧ st'.2.dist ≤ .fin (D 0 exTail 4 0 3) := by
  induction L generalizing st with
  | nil =>
    refine ⟨st, rfl, hb, ?_⟩
    rcases hd with hd | ⟨L1, w, L2, h1, -⟩
    · exact hd
    · simp at h1
  | cons c L ih =>
    obtain ⟨c1, ⟨w, c3⟩, c4⟩ := hL c (by simp)
    have hL' := fun c' hc' => hL c' (List.mem_cons_of_mem _ hc')
    have hlen := exTail_length
    rw [List.foldlM_cons]
    unfold recalcColumn
    -- what is known when the head of the list is done
    have hnext : ∀ best' : Best, best'.dist ≤ st.2.dist → (c.1 = 3 → c.2 ≤ .fin (D 0 exTail 4 0 3) → best'.dist ≤ .fin (D 0 exTail 4 0 3)) → Ready best' L := by
      intro best' h1 h2
      rcases hd with hd | ⟨L1, w', L2, h3, h4, h5⟩
      · exact Or.inl (h1.trans hd)
      · cases L1 with
        | nil =>
          obtain ⟨rfl, rfl⟩ := List.cons.inj h3
          exact Or.inl (h2 rfl h4)
        | cons a L1 =>
          obtain ⟨-, h3⟩ := List.cons.inj h3
          exact Or.inr ⟨L1, w', L2, h3, h4, fun c hc => h5 c (List.mem_cons_of_mem _ hc)⟩
    by_cases hlt : c.2.ltF st.2.dist = true
    · rw [if_pos hlt]
      have hc4 : c.1 ≠ 4 ∧ c.1 ≠ 7 := by
        by_contra hc
        have hc' : c.1 = 4 ∨ c.1 = 7 := by omega
        rcases hd with hd | ⟨L1, w', L2, h3, h4, h5⟩
        · have h5 := ((Fl.ltF_iff _ _).mp hlt).1
          exact absurd (lt_of_le_of_lt (c4 hc') (lt_of_lt_of_le h5 hd)) (lt_irrefl _)
        · cases L1 with
          | nil =>
            obtain ⟨rfl, -⟩ := List.cons.inj h3
            simp at hc'
          | cons a L1 =>
            obtain ⟨rfl, -⟩ := List.cons.inj h3
            exact hc (h5 c (by simp))
      obtain ⟨z', g1, g2, -, -⟩ := column_gen mem hmem st.1 4 exTail hg c.1 (by rw [hlen]; omega)
      have hok : BestOk 0 exTail 4 2 (fun _ _ => False) st.2 := by
        refine ⟨?_, fun _ _ _ h => h.elim⟩
        rcases hb with h1 | ⟨q, i, h1, h2, h3, -⟩
        · exact Or.inl h1
        · exact Or.inr ⟨q, i, h1, h2, h3⟩
      obtain ⟨best', b1, b2, b3⟩ := hok.improve c.1 (by rw [hlen]; omega)
      have hm : FlatMissed best' := by
        rcases improve_idx b1 with rfl | ⟨r, hr⟩
        · exact hb
        · rcases b2.hit with h1 | ⟨q, i, h1, h2, h3⟩
          · rw [h1.2] at hr; simp at hr
          · rw [h3, Option.some.injEq, Prod.mk.injEq] at hr
            exact Or.inr ⟨q, i, h1, h2, h3, Or.inl (by omega), Or.inl (by omega)⟩
      have hr : Ready best' L := hnext best' b3 fun h3 _ =>
        b2.low 0 3 ⟨by rw [hlen]; omega, by rw [hlen]; omega, by omega⟩ (Or.inr h3.symm)
      obtain ⟨st', s1, s2⟩ := ih hL' (z', best') g2 hm hr
      refine ⟨st', ?_, s2⟩
      rw [g1]
      simp only [bind, Except.bind]
      rw [show (2 : Int) = ((2 : Nat) : Int) from rfl, b1]
      exact s1
    · rw [if_neg hlt]
      have hle : st.2.dist ≤ c.2 := (Fl.ltF_false_iff _ _ hb.ne_nan).mp (by simpa using hlt)
      obtain ⟨st', s1, s2⟩ := ih hL' st hg hb (hnext st.2 le_rfl fun _ h => hle.trans h)
      exact ⟨st', s1, s2⟩

theorem FlatMissed.wrong {best : Best} (h : FlatMissed best) : ¬ IsMotif 0 exTail 4 2 best.idx := by
  have hfar : FarPair exTail.length 4 2 4 7 := ⟨by rw [exTail_length]; omega, by rw [exTail_length], by omega⟩
  intro hm
  rcases h with ⟨-, h1⟩ | ⟨q, i, h1, -, h2, h3, h4⟩
  · rw [h1] at hm
    exact hm 4 7 hfar
  · rw [h2] at hm
    have h5 := hm.2 4 7 hfar
    have h6 := exTail_pos h1 h3 h4
    rw [show zdist 4 0 (seqOf exTail) (seqOf exTail) 4 7 = 0 from exTail_missed] at h5
    exact absurd h6 (not_lt.mpr h5)

/-- **C59 fails** without noise elimination too, when some subsequences are nearly but not exactly constant and the cache does not hold all pairs: on 2, 1, 0, 1 followed by
0, 2, -2, -1, 0, 2, 2 times 1e-7, lengths 3 to 4 and one entry per column (any memory, any order of equal elements in `argsort`) the call returns, and its answer for length
4 is not the best pair: subsequences 4 and 7 both count as flat, so their distance is 0, and they are missed. -/
theorem _root_.Verif.C59_nearly_flat_wrong (mem : Mem) (hmem : mem.Ok) (argsort : List (Fl ℝ) → List Nat) (hsort : ∀ v, IsArgsort v (argsort v)) :
    ∃ a c, findMotifs mem argsort (exTail.map .fin) 3 4 1 0 = .ok [a, c] ∧ IsMotif 0 exTail 3 2 a ∧ ¬ IsMotif 0 exTail 4 2 c := by
  have hlen := exTail_length
  obtain ⟨z, z1, z2⟩ := prepare_gen mem hmem 0 3 (by omega) exTail (by rw [hlen]; omega)
  obtain ⟨f, f1, f2, -, f3⟩ := full_ok mem hmem argsort hsort 1 (by omega) exTail 3 2 (by omega) (by rw [hlen]; omega) z z2
  obtain ⟨y, y1, y2⟩ := prepare_gen mem hmem 0 4 (by omega) exTail (by rw [hlen]; omega)
  obtain ⟨p, p1, p2⟩ := foldlM_range (Pass.column y (exTail.map .fin) 4 8 2) (fun t p => TailPass t f.lists p) 8 ⟨f.lists, ⟨.pinf, none⟩, []⟩
    ⟨fun _ _ => rfl, Or.inl ⟨rfl, rfl⟩, fun h => by omega, by simp, by simp, fun h => by omega⟩
    (fun t p ht hp => hp.column y y2.1 ht (f2 t (by rw [hlen]; omega)))
  have hstep : ∃ lists c, lengthStep mem argsort npMin 0 1 2 (exTail.map .fin) (f.lists, [f.best.idx]) 4 = .ok (lists, [f.best.idx, c]) ∧ ¬ IsMotif 0 exTail 4 2 c := by
    have y1' : prepare mem 0 4 (exTail.map .fin) none = .ok y := y1
    unfold lengthStep
    rw [y1']
    simp only [bind, Except.bind, List.length_map]
    have p1' : (List.range ((exTail.length : Int) - 4 + 1).toNat).foldlM (Pass.column y (exTail.map .fin) 4 ((exTail.length : Int) - 4 + 1) 2)
        ⟨f.lists, ⟨.pinf, none⟩, []⟩ = .ok p := p1
    rw [p1']
    simp only
    have hne := p2.some' (by omega)
    obtain ⟨best, m1, m2⟩ : ∃ best, FlatMissed best ∧ settle mem argsort 1 2 ((exTail.length : Int) - 4 + 1) y p = .ok (p.lists, best.idx) := by
      obtain ⟨st', s1, s2, -⟩ := tail_recalc mem hmem p.invalid p2.inv (y, p.best) y2 p2.missed (p2.first (by omega))
      refine ⟨st'.2, s2, ?_⟩
      unfold settle
      rw [if_neg]
      · rw [s1]
        rfl
      · have h5 : (((exTail.length : Int) - 4 + 1 : Int) : ℝ) = 8 := by rw [hlen]; norm_num
        have hlog : (1 : ℝ) ≤ Real.log 8 := by
          rw [Real.le_log_iff_exp_le (by norm_num)]
          exact Real.exp_one_lt_d9.le.trans (by norm_num)
        have hfew : (p.invalid.length : ℝ) ≤ 8 := by exact_mod_cast p2.few
        rw [h5]
        linarith
    obtain ⟨v, v1, -⟩ := npMin_spec (p.invalid.map (·.2)) (by simpa using hne)
    have hacc : p.accept npMin = .ok false ∨ p.accept npMin = .ok true := by
      unfold Pass.accept
      split
      · exact Or.inl rfl
      · rw [v1]
        cases h : p.best.dist.leF v
        · exact Or.inl (by simp [bind, Except.bind, pure, Except.pure, h])
        · exact Or.inr (by simp [bind, Except.bind, pure, Except.pure, h])
    rcases hacc with hacc | hacc
    · rw [hacc]
      refine ⟨p.lists, best.idx, ?_, m1.wrong⟩
      simp only [Bool.false_eq_true, if_false]
      rw [m2]
      rfl
    · rw [hacc]
      exact ⟨p.lists, p.best.idx, rfl, p2.missed.wrong⟩
  obtain ⟨lists, c, h1, h2⟩ := hstep
  refine ⟨f.best.idx, c, ?_, f3.motif, h2⟩
  have z1' : prepare mem 0 3 (exTail.map .fin) none = .ok z := z1
  have f1' : full mem argsort 1 2 z = .ok f := f1
  unfold findMotifs findMotifsWith
  rw [if_neg (by omega), if_neg (by omega), if_neg (by omega), z1']
  simp only [bind, Except.bind]
  rw [show ((3 : Int) + 1) / 2 = 2 by norm_num, f1']
  simp only
  rw [show pyRange (3 + 1) (4 + 1) = [4] from rfl, List.foldlM_cons, h1]
  rfl

/-- With room for all nine subsequences of length 3 the same call is right, or fails with `ValueError` (`C59_partial`). -/
example : (∃ found, findMotifs ZN.zeroMem Ostinato.sortIdx (exTail.map .fin) (3 : Nat) (((3 : Nat) : Int) + (1 : Nat)) 9 0 = .ok found ∧ found.length = 2 ∧
    ∀ j, j ≤ 1 → ∃ a, found[j]? = some a ∧ IsMotif 0 exTail (3 + j) 2 a) ∨
    findMotifs ZN.zeroMem Ostinato.sortIdx (exTail.map .fin) (3 : Nat) (((3 : Nat) : Int) + (1 : Nat)) 9 0 = .error .valueError :=
  C59_partial ZN.zeroMem ZN.zeroMem_ok Ostinato.sortIdx Ostinato.sortIdx_ok 9 (by norm_num) 0 exTail 3 1 (by norm_num) (by simp [exTail]) (.inl (by simp [exTail]))

/-- The hypothesis of `C59_partial` on nearly flat subsequences fails for this series. -/
example : ¬ NoNearlyFlat exTail 4 := fun h => std_ne_of_var (exTail_var4 7 (27 / 1600000000000000) (by simp)) (by norm_num)
  (h 7 (by rw [exTail_length]) ((exTail_flat 7 (by norm_num)).mpr (by norm_num)))

end Valmod
end Verif
