import Verif.Props.ValmodMain
import Mathlib.Analysis.Complex.ExponentialBounds

/-!
# C59: VALMOD with noise elimination

The lower bounds of `valmod.py` are bounds of the plain z-normalised distance (C58). Noise elimination makes the distances smaller, not the bounds, so columns can be
settled by a pair that is not their best.
-/

namespace Verif
open Spec
namespace Valmod
open ZN
variable {noise : ℝ}

/-- Mean product of the deviations of two subsequences. -/
noncomputable def cov (m : Nat) (x : Nat → ℝ) (q i : Nat) : ℝ := (∑ k ∈ Finset.range m, (x (i + k) - mean m x i) * (x (q + k) - mean m x q)) / m

/-- The squared base of subsequences that move in opposite directions. -/
theorem boundBase_sq_neg (l : Nat) (x : Nat → ℝ) (q i : Nat) (h : cov l x q i ≤ 0) : boundBase l x x q i ^ 2 = l * var l x i := by
  have hc : corr l x x q i ≤ 0 := div_nonpos_of_nonpos_of_nonneg h (mul_nonneg (std_nonneg _ _ _) (std_nonneg _ _ _))
  rw [boundBase_sq, max_eq_right hc, min_eq_left (by norm_num), std, Real.sq_sqrt (var_nonneg _ _ _)]
  ring

/-- The squared base of subsequences that move in the same direction. -/
theorem boundBase_sq_pos (l : Nat) (x : Nat → ℝ) (q i : Nat) (h : 0 ≤ cov l x q i) (hq : 0 < var l x q) (hi : 0 < var l x i)
    (hle : cov l x q i ^ 2 ≤ var l x q * var l x i) : boundBase l x x q i ^ 2 = l * (var l x i - cov l x q i ^ 2 / var l x q) := by
  have s1 : std l x q ^ 2 = var l x q := Real.sq_sqrt hq.le
  have s2 : std l x i ^ 2 = var l x i := Real.sq_sqrt hi.le
  have hc0 : 0 ≤ corr l x x q i := div_nonneg h (mul_nonneg (std_nonneg _ _ _) (std_nonneg _ _ _))
  have hc2 : corr l x x q i ^ 2 = cov l x q i ^ 2 / (var l x q * var l x i) := by
    unfold corr
    rw [div_pow, mul_pow, s1, s2]
    rfl
  have hc1 : corr l x x q i ≤ 1 := by
    have : corr l x x q i ^ 2 ≤ 1 := by rw [hc2, div_le_one (mul_pos hq hi)]; exact hle
    nlinarith
  rw [boundBase_sq, max_eq_left hc0, min_eq_left hc1, hc2, s2]
  field_simp

/-- The series of the counterexample. -/
def _root_.Verif.exNoisy : List ℝ := [2, 6, 3, 3, 14, 14, 11, 11]

theorem exNoisy_var3 (i : Nat) (v : ℝ) (h : (i, v) ∈ [(0, (26 / 9 : ℝ)), (1, 2), (3, 242 / 9), (4, 2), (5, 2)]) : var 3 (seqOf exNoisy) i = v := by
  simp only [List.mem_cons, Prod.mk.injEq, List.not_mem_nil, or_false] at h
  rcases h with ⟨rfl, rfl⟩ | ⟨rfl, rfl⟩ | ⟨rfl, rfl⟩ | ⟨rfl, rfl⟩ | ⟨rfl, rfl⟩ <;>
    norm_num [var, mean, seqOf, exNoisy, Finset.sum_range_succ]

theorem exNoisy_std4 (i : Nat) (v : ℝ) (h : (i, v) ∈ [(0, (3 / 2 : ℝ)), (1, 9 / 2), (3, 9 / 2), (4, 3 / 2)]) : std 4 (seqOf exNoisy) i = v := by
  simp only [List.mem_cons, Prod.mk.injEq, List.not_mem_nil, or_false] at h
  have key : ∀ v : ℝ, 0 ≤ v → var 4 (seqOf exNoisy) i = v ^ 2 → std 4 (seqOf exNoisy) i = v := fun v h0 h1 => by rw [std, h1, Real.sqrt_sq h0]
  rcases h with ⟨rfl, rfl⟩ | ⟨rfl, rfl⟩ | ⟨rfl, rfl⟩ | ⟨rfl, rfl⟩ <;> refine key _ (by norm_num) ?_ <;>
    norm_num [var, mean, seqOf, exNoisy, Finset.sum_range_succ]

theorem exNoisy_bases : boundBase 3 (seqOf exNoisy) (seqOf exNoisy) 3 0 ^ 2 = 9 / 2 ∧ boundBase 3 (seqOf exNoisy) (seqOf exNoisy) 4 0 ^ 2 = 8 ∧
    boundBase 3 (seqOf exNoisy) (seqOf exNoisy) 5 0 ^ 2 = 26 / 3 ∧ boundBase 3 (seqOf exNoisy) (seqOf exNoisy) 1 4 ^ 2 = 9 / 2 ∧
    boundBase 3 (seqOf exNoisy) (seqOf exNoisy) 0 4 ^ 2 = 72 / 13 := by
  have v0 := exNoisy_var3 0 (26 / 9) (by simp)
  have v1 := exNoisy_var3 1 2 (by simp)
  have v3 := exNoisy_var3 3 (242 / 9) (by simp)
  have v4 := exNoisy_var3 4 2 (by simp)
  have c30 : cov 3 (seqOf exNoisy) 3 0 = 55 / 9 := by norm_num [cov, mean, seqOf, exNoisy, Finset.sum_range_succ]
  have c40 : cov 3 (seqOf exNoisy) 4 0 = 2 / 3 := by norm_num [cov, mean, seqOf, exNoisy, Finset.sum_range_succ]
  have c50 : cov 3 (seqOf exNoisy) 5 0 = -5 / 3 := by norm_num [cov, mean, seqOf, exNoisy, Finset.sum_range_succ]
  have c14 : cov 3 (seqOf exNoisy) 1 4 = 1 := by norm_num [cov, mean, seqOf, exNoisy, Finset.sum_range_succ]
  have c04 : cov 3 (seqOf exNoisy) 0 4 = 2 / 3 := by norm_num [cov, mean, seqOf, exNoisy, Finset.sum_range_succ]
  refine ⟨?_, ?_, ?_, ?_, ?_⟩
  · rw [boundBase_sq_pos 3 _ 3 0 (by rw [c30]; norm_num) (by rw [v3]; norm_num) (by rw [v0]; norm_num) (by rw [c30, v3, v0]; norm_num), c30, v3, v0]; norm_num
  · rw [boundBase_sq_pos 3 _ 4 0 (by rw [c40]; norm_num) (by rw [v4]; norm_num) (by rw [v0]; norm_num) (by rw [c40, v4, v0]; norm_num), c40, v4, v0]; norm_num
  · rw [boundBase_sq_neg 3 _ 5 0 (by rw [c50]; norm_num), v0]; norm_num
  · rw [boundBase_sq_pos 3 _ 1 4 (by rw [c14]; norm_num) (by rw [v1]; norm_num) (by rw [v4]; norm_num) (by rw [c14, v1, v4]; norm_num), c14, v1, v4]; norm_num
  · rw [boundBase_sq_pos 3 _ 0 4 (by rw [c04]; norm_num) (by rw [v0]; norm_num) (by rw [v4]; norm_num) (by rw [c04, v0, v4]; norm_num), c04, v0, v4]; norm_num

theorem exNoisy_dists : D 2 exNoisy 4 3 0 ^ 2 = 56 / 81 ∧ D 2 exNoisy 4 0 4 = 0 ∧ 0 < D 2 exNoisy 4 1 4 := by
  have s0 := exNoisy_std4 0 (3 / 2) (by simp)
  have s1 := exNoisy_std4 1 (9 / 2) (by simp)
  have s3 := exNoisy_std4 3 (9 / 2) (by simp)
  have s4 := exNoisy_std4 4 (3 / 2) (by simp)
  have f0 : ¬ Flat 4 (seqOf exNoisy) 0 := by rw [Flat, s0]; norm_num
  have f1 : ¬ Flat 4 (seqOf exNoisy) 1 := by rw [Flat, s1]; norm_num
  have f3 : ¬ Flat 4 (seqOf exNoisy) 3 := by rw [Flat, s3]; norm_num
  have f4 : ¬ Flat 4 (seqOf exNoisy) 4 := by rw [Flat, s4]; norm_num
  have z30 : znoise 4 2 (seqOf exNoisy) (seqOf exNoisy) 3 0 = 56 / 81 := by
    simp only [znoise, zflat, f0, f3, and_self, or_self, if_false, zsq, s0, s3]
    rw [max_eq_right (by norm_num)]
    norm_num [mean, seqOf, exNoisy, Finset.sum_range_succ]
  have z04 : znoise 4 2 (seqOf exNoisy) (seqOf exNoisy) 0 4 < 0 := by
    simp only [znoise, zflat, f0, f4, and_self, or_self, if_false, zsq, s0, s4, max_self]
    norm_num [mean, seqOf, exNoisy, Finset.sum_range_succ]
  have z14 : 1 < znoise 4 2 (seqOf exNoisy) (seqOf exNoisy) 1 4 := by
    simp only [znoise, zflat, f1, f4, and_self, or_self, if_false, zsq, s1, s4]
    rw [max_eq_right (by norm_num)]
    norm_num [mean, seqOf, exNoisy, Finset.sum_range_succ]
  refine ⟨?_, ?_, ?_⟩
  · rw [D, zdist, z30, if_neg (by norm_num), Real.sq_sqrt (by norm_num)]
  · rw [D, zdist, if_pos (by linarith)]
    simp
  · rw [D, zdist, if_neg (by norm_num; linarith)]
    exact Real.sqrt_pos.mpr (by linarith)

/-- The only pairs that are far enough apart at length 4. -/
theorem exNoisy_far {q i : Nat} (h : FarPair exNoisy.length 4 2 q i) : (q = 3 ∧ i = 0) ∨ (q = 0 ∧ i = 3) ∨ (q = 4 ∧ i = 0) ∨ (q = 0 ∧ i = 4) ∨ (q = 4 ∧ i = 1) ∨ (q = 1 ∧ i = 4) := by
  obtain ⟨h1, h2, h3⟩ := h
  simp only [exNoisy, List.length_cons, List.length_nil] at h1 h2
  omega

theorem exNoisy_pos {q i : Nat} (h : FarPair exNoisy.length 4 2 q i) (hq : i ≠ 0 ∨ q ≠ 4) (hi : i ≠ 4 ∨ q ≠ 0) : 0 < D 2 exNoisy 4 q i := by
  obtain ⟨d1, -, d2⟩ := exNoisy_dists
  have d3 : 0 < D 2 exNoisy 4 3 0 := lt_of_le_of_ne (zdist_nonneg _ _ _ _ _ _) fun h0 => by rw [← h0] at d1; norm_num at d1
  rcases exNoisy_far h with ⟨rfl, rfl⟩ | ⟨rfl, rfl⟩ | ⟨rfl, rfl⟩ | ⟨rfl, rfl⟩ | ⟨rfl, rfl⟩ | ⟨rfl, rfl⟩
  · exact d3
  · rw [D, zdist_symm]; exact d3
  · simp at hq
  · simp at hi
  · rw [D, zdist_symm]; exact d2
  · exact d2

/-- The list of column 0 and of column 4 at length 3 with room for one entry. -/
theorem exNoisy_entry (m i q : Nat) (hqi : (q = 3 ∧ i = 0) ∨ (q = 1 ∧ i = 4)) (es : List Entry) (h : ListAt exNoisy 3 2 1 m i es) :
    ∃ e, es = [e] ∧ e.q = q ∧ e.base = .fin (boundBase 3 (seqOf exNoisy) (seqOf exNoisy) q i) := by
  have hlen : exNoisy.length = 8 := rfl
  have hstd : ∀ j, j = 0 ∨ j = 1 ∨ j = 3 ∨ j = 4 ∨ j = 5 → std 3 (seqOf exNoisy) j ≠ 0 := by
    intro j hj h0
    have hv : var 3 (seqOf exNoisy) j = 0 := by
      rw [std, Real.sqrt_eq_zero (var_nonneg _ _ _)] at h0
      exact h0
    rcases hj with rfl | rfl | rfl | rfl | rfl
    · rw [exNoisy_var3 0 (26 / 9) (by simp)] at hv; norm_num at hv
    · rw [exNoisy_var3 1 2 (by simp)] at hv; norm_num at hv
    · rw [exNoisy_var3 3 (242 / 9) (by simp)] at hv; norm_num at hv
    · rw [exNoisy_var3 4 2 (by simp)] at hv; norm_num at hv
    · rw [exNoisy_var3 5 2 (by simp)] at hv; norm_num at hv
  have hi : std 3 (seqOf exNoisy) i ≠ 0 := hstd i (by omega)
  have hq : std 3 (seqOf exNoisy) q ≠ 0 := hstd q (by omega)
  have hfar : FarPair exNoisy.length 3 2 q i := by
    refine ⟨?_, ?_, ?_⟩
    all_goals first | rw [hlen]; omega | omega
  obtain ⟨e, rfl⟩ : ∃ e, es = [e] := by
    have hc := h.count
    match es, hc, h with
    | [], _, h =>
      obtain ⟨e, he, -⟩ := h.all (.inl (by simp)) hi q hfar hq
      simp at he
    | [e], _, _ => exact ⟨e, rfl⟩
    | _ :: _ :: _, hc, _ => simp at hc; omega
  have hq' : e.q = q := by
    rcases h.rest hi q hfar hq with ⟨e', he', h1⟩ | h1
    · rw [List.mem_singleton.mp he'] at h1
      exact h1
    · have h2 := h1 e (by simp)
      obtain ⟨i1, i2⟩ := h.idx e (by simp)
      by_contra hne
      by_cases hf : e.q + 2 < i ∨ i + 2 < e.q
      · rw [h.base e (by simp) hf] at h2
        rw [hlen] at i2
        obtain ⟨b1, b2, b3, b4, b5⟩ := exNoisy_bases
        have n1 := boundBase_nonneg 3 (seqOf exNoisy) (seqOf exNoisy) 3 0
        have n2 := boundBase_nonneg 3 (seqOf exNoisy) (seqOf exNoisy) 4 0
        have n3 := boundBase_nonneg 3 (seqOf exNoisy) (seqOf exNoisy) 5 0
        have n4 := boundBase_nonneg 3 (seqOf exNoisy) (seqOf exNoisy) 1 4
        have n5 := boundBase_nonneg 3 (seqOf exNoisy) (seqOf exNoisy) 0 4
        have hcase : (e.q = 4 ∧ q = 3 ∧ i = 0) ∨ (e.q = 5 ∧ q = 3 ∧ i = 0) ∨ (e.q = 0 ∧ q = 1 ∧ i = 4) := by omega
        rcases hcase with ⟨h3, rfl, rfl⟩ | ⟨h3, rfl, rfl⟩ | ⟨h3, rfl, rfl⟩ <;>
          rw [h3, baseOf, if_neg (hstd _ (by omega)), Fl.fin_le_fin] at h2 <;> nlinarith
      · rw [h.near e (by simp) hf] at h2
        exact absurd (lt_of_le_of_lt h2 (Fl.fin_lt_pinf _)) (lt_irrefl _)
  refine ⟨e, rfl, hq', ?_⟩
  rw [h.base e (by simp) (by rw [hq']; exact hfar.2.2), hq', baseOf, if_neg hq]

/-- What the best pair looks like all the way through length 4: it never is the pair of subsequences 0 and 4. -/
def Missed (best : Best) : Prop :=
  (best.dist = .pinf ∧ best.idx = none) ∨ ∃ q i, FarPair exNoisy.length 4 2 q i ∧ best.dist = .fin (D 2 exNoisy 4 q i) ∧ best.idx = some (q, i) ∧
    (i ≠ 0 ∨ q ≠ 4) ∧ (i ≠ 4 ∨ q ≠ 0)

/-- State after the columns below `t`. -/
structure NoisyPass (t : Nat) (lists0 : List (List Entry)) (p : Pass) : Prop where
  todo : ∀ i, t ≤ i → p.lists[i]? = lists0[i]?
  missed : Missed p.best
  first : 0 < t → p.best.dist ≤ .fin (D 2 exNoisy 4 3 0)
  inv : ∀ c ∈ p.invalid, c.1 < t ∧ c.1 ≠ 0 ∧ (∃ w, c.2 = .fin w) ∧ (c.1 = 4 → .fin (D 2 exNoisy 4 3 0) ≤ c.2)
  few : p.invalid.length ≤ t
  some' : 2 < t → p.invalid ≠ []

theorem Missed.ne_nan {best : Best} (h : Missed best) : best.dist ≠ .nan := by
  rcases h with h1 | ⟨q, i, -, h1, -⟩
  · rw [h1.1]; simp
  · rw [h1]; simp

theorem exNoisy_lb (q i : Nat) (hqi : (q = 3 ∧ i = 0) ∨ (q = 1 ∧ i = 4)) :
    D 2 exNoisy 4 3 0 < boundBase 3 (seqOf exNoisy) (seqOf exNoisy) q i / std 4 (seqOf exNoisy) i := by
  obtain ⟨b1, -, -, b4, -⟩ := exNoisy_bases
  obtain ⟨d1, -, -⟩ := exNoisy_dists
  have n1 := boundBase_nonneg 3 (seqOf exNoisy) (seqOf exNoisy) q i
  have hs : std 4 (seqOf exNoisy) i = 3 / 2 := by
    rcases hqi with ⟨-, rfl⟩ | ⟨-, rfl⟩
    · exact exNoisy_std4 0 _ (by simp)
    · exact exNoisy_std4 4 _ (by simp)
  have hb : boundBase 3 (seqOf exNoisy) (seqOf exNoisy) q i ^ 2 = 9 / 2 := by
    rcases hqi with ⟨rfl, rfl⟩ | ⟨rfl, rfl⟩
    · exact b1
    · exact b4
  have hd : 0 ≤ D 2 exNoisy 4 3 0 := zdist_nonneg _ _ _ _ _ _
  rw [hs, lt_div_iff₀ (by norm_num)]
  nlinarith

theorem NoisyPass.column {t : Nat} {lists0 : List (List Entry)} {p : Pass} (h : NoisyPass t lists0 p) (z : ZN) (hz : z.Base 4 2 exNoisy.length none exNoisy exNoisy)
    (ht : t < 5) (h0 : ∃ es, lists0[t]? = some es ∧ ListAt exNoisy 3 2 1 3 t es) :
    ∃ p', Pass.column z (exNoisy.map .fin) 4 5 2 p t = .ok p' ∧ NoisyPass (t + 1) lists0 p' := by
  obtain ⟨es, e1, e2⟩ := h0
  have hlen : exNoisy.length = 8 := rfl
  have e3 : p.lists[t]? = some es := by rw [h.todo t le_rfl, e1]
  obtain ⟨sc, es', s1, s2, -⟩ := scan_list (noise := 2) exNoisy 3 2 4 t z hz (by norm_num) (by norm_num) (by rw [hlen]; omega) 1 es e2 es (fun _ h => h) []
    ⟨.pinf, none, .fin (-1)⟩ ⟨Or.inl ⟨rfl, rfl⟩, by simp, Or.inl rfl, by simp⟩
  rw [List.nil_append] at s2
  have s1' : Scan.list z (exNoisy.map .fin) 4 5 2 t ⟨.pinf, none, .fin (-1)⟩ es = .ok (sc, es') := s1
  have hlists : ∀ p' : Pass, p'.lists = p.lists → ∀ i, t + 1 ≤ i → (p'.lists.set t es')[i]? = lists0[i]? := by
    intro p' hp' i hi
    rw [hp', List.getElem?_set_ne (by omega), h.todo i (by omega)]
  obtain ⟨w, hw⟩ : ∃ w, sc.lb = .fin w := by
    rcases s2.lbHit with h1 | ⟨e', -, -, v, -, h1⟩ <;> exact ⟨_, h1⟩
  -- columns 0 and 4
  have hspec : ∀ q, (q = 3 ∧ t = 0) ∨ (q = 1 ∧ t = 4) → sc.dist = .fin (D 2 exNoisy 4 q t) ∧ .fin (D 2 exNoisy 4 3 0) < sc.lb ∧ sc.entry = some (q, t) := by
    intro q hq
    obtain ⟨e, rfl, h1, h2⟩ := exNoisy_entry 3 t q hq es e2
    have hfar : FarPair exNoisy.length 4 2 e.q t := by
      rw [h1]
      refine ⟨?_, ?_, ?_⟩
      all_goals first | rw [hlen]; omega | omega
    refine ⟨?_, ?_, ?_⟩
    · rcases s2.hit with h3 | ⟨e', h3, -, h4, -⟩
      · have := s2.low e (by simp) hfar
        rw [h3.1] at this
        exact absurd (lt_of_le_of_lt this (Fl.fin_lt_pinf _)) (lt_irrefl _)
      · rw [List.mem_singleton.mp h3, h1] at h4
        exact h4
    · exact lt_of_lt_of_le ((Fl.fin_lt_fin _ _).mpr (exNoisy_lb q t hq)) (s2.lbLow e (by simp) hfar _ h2)
    · rcases s2.hit with h3 | ⟨e', h3, -, -, h4⟩
      · have := s2.low e (by simp) hfar
        rw [h3.1] at this
        exact absurd (lt_of_le_of_lt this (Fl.fin_lt_pinf _)) (lt_irrefl _)
      · rw [List.mem_singleton.mp h3, h1] at h4
        exact h4
  -- column 2 has no pairs
  have htwo : t = 2 → ¬ sc.dist.ltF sc.lb = true := by
    intro h2
    rcases s2.hit with h3 | ⟨e', -, h3, -⟩
    · rw [h3.1, hw]
      simp [Fl.ltF]
    · exfalso
      rcases exNoisy_far h3 with h4 | h4 | h4 | h4 | h4 | h4 <;> omega
  have hcand : sc.dist.ltF sc.lb = true → ∃ q, FarPair exNoisy.length 4 2 q t ∧ sc.dist = .fin (D 2 exNoisy 4 q t) ∧ sc.entry = some (q, t) ∧
      (t ≠ 0 ∨ q ≠ 4) ∧ (t ≠ 4 ∨ q ≠ 0) := by
    intro hlt
    have hlt' := ((Fl.ltF_iff _ _).mp hlt).1
    rcases s2.hit with h3 | ⟨e, h3, h4, h5, h6⟩
    · rw [h3.1, hw] at hlt'
      simp at hlt'
    · refine ⟨e.q, h4, h5, h6, ?_, ?_⟩
      · by_contra hc
        obtain ⟨-, -, h7⟩ := hspec 3 (by omega)
        rw [h6, Option.some.injEq, Prod.mk.injEq] at h7
        omega
      · by_contra hc
        obtain ⟨-, -, h7⟩ := hspec 1 (by omega)
        rw [h6, Option.some.injEq, Prod.mk.injEq] at h7
        omega
  unfold Pass.column
  rw [pyGet_at _ _ _ e3]
  simp only [bind, Except.bind]
  rw [s1']
  simp only
  have hzero : t = 0 → sc.dist.ltF sc.lb = true := by
    intro h0
    obtain ⟨g1, g2, -⟩ := hspec 3 (by omega)
    subst h0
    rw [Fl.ltF_iff, g1]
    exact ⟨g2, by rw [hw]; simp⟩
  by_cases hlt : sc.dist.ltF sc.lb = true
  · obtain ⟨q, p2, p3, p4, p5⟩ := hcand hlt
    by_cases hb : sc.dist.ltF p.best.dist = true
    · have hb' := ((Fl.ltF_iff _ _).mp hb).1
      have hj : p.judge t sc = .ok { p with best := ⟨sc.dist, some (q, t)⟩ } := by
        unfold Pass.judge
        rw [if_pos hlt, if_pos hb, p4]
      rw [hj]
      refine ⟨_, rfl, hlists _ rfl, Or.inr ⟨q, t, p2, p3, rfl, p5⟩, fun _ => ?_, fun c hc => ?_, ?_, fun h2 => ?_⟩
      · by_cases h0 : t = 0
        · subst h0
          obtain ⟨g1, -⟩ := hspec 3 (by omega)
          exact g1.le
        · exact hb'.le.trans (h.first (by omega))
      · obtain ⟨i1, i2⟩ := h.inv c hc
        exact ⟨by omega, i2⟩
      · exact h.few.trans (by omega)
      · by_cases h3 : t = 2
        · exact absurd hlt (htwo h3)
        · exact h.some' (by omega)
    · have hj : p.judge t sc = .ok p := by
        unfold Pass.judge
        rw [if_pos hlt, if_neg hb]
      rw [hj]
      have hb' : p.best.dist ≤ sc.dist := (Fl.ltF_false_iff _ _ h.missed.ne_nan).mp (by simpa using hb)
      refine ⟨_, rfl, hlists _ rfl, h.missed, fun _ => ?_, fun c hc => ?_, ?_, fun h2 => ?_⟩
      · by_cases h0 : t = 0
        · subst h0
          obtain ⟨g1, -⟩ := hspec 3 (by omega)
          exact hb'.trans g1.le
        · exact h.first (by omega)
      · obtain ⟨i1, i2⟩ := h.inv c hc
        exact ⟨by omega, i2⟩
      · exact h.few.trans (by omega)
      · by_cases h3 : t = 2
        · exact absurd hlt (htwo h3)
        · exact h.some' (by omega)
  · have hj : p.judge t sc = .ok { p with invalid := p.invalid ++ [(t, sc.lb)] } := by
      unfold Pass.judge
      rw [if_neg hlt]
    rw [hj]
    have h0 : t ≠ 0 := fun h0 => hlt (hzero h0)
    refine ⟨_, rfl, hlists _ rfl, h.missed, fun _ => h.first (by omega), fun c hc => ?_, ?_, fun _ => by simp⟩
    · rcases List.mem_append.mp hc with hc | hc
      · obtain ⟨i1, i2⟩ := h.inv c hc
        exact ⟨by omega, i2⟩
      · rw [List.mem_singleton.mp hc]
        exact ⟨by simp, h0, ⟨w, hw⟩, fun h4 => (hspec 1 (by simp at h4; omega)).2.1.le⟩
    · simp only [List.length_append, List.length_cons, List.length_nil]
      have := h.few
      omega

theorem improve_idx {best best' : Best} {d : List (Fl ℝ)} {c : Nat} (h : best.improve d c = .ok best') : best' = best ∨ ∃ r, best'.idx = some (r, c) := by
  unfold Best.improve at h
  obtain ⟨v, -, h⟩ := bind_ok_iff.mp h
  split at h
  · obtain ⟨r, -, h⟩ := bind_ok_iff.mp h
    cases h
    exact Or.inr ⟨r, rfl⟩
  · cases h
    exact Or.inl rfl

theorem noisy_recalc (mem : Mem) (hmem : mem.Ok) (L : List (Nat × Fl ℝ))
    (hL : ∀ c ∈ L, c.1 < 5 ∧ c.1 ≠ 0 ∧ (∃ w, c.2 = .fin w) ∧ (c.1 = 4 → .fin (D 2 exNoisy 4 3 0) ≤ c.2)) (st : ZN × Best) (hg : GenOk 2 st.1 4 exNoisy)
    (hb : Missed st.2) (hd : st.2.dist ≤ .fin (D 2 exNoisy 4 3 0)) :
    ∃ st', L.foldlM (recalcColumn mem 2) st = .ok st' ∧ Missed st'.2 ∧ st'.2.dist ≤ .fin (D 2 exNoisy 4 3 0) := by
  induction L generalizing st with
  | nil => exact ⟨st, rfl, hb, hd⟩
  | cons c L ih =>
    obtain ⟨c1, c2, ⟨w, c3⟩, c4⟩ := hL c (by simp)
    have hL' := fun c' hc' => hL c' (List.mem_cons_of_mem _ hc')
    have hlen : exNoisy.length = 8 := rfl
    rw [List.foldlM_cons]
    unfold recalcColumn
    by_cases hlt : c.2.ltF st.2.dist = true
    · rw [if_pos hlt]
      have hc4 : c.1 ≠ 4 := fun h4 => by
        have h5 := ((Fl.ltF_iff _ _).mp hlt).1
        exact absurd (lt_of_le_of_lt (c4 h4) (lt_of_lt_of_le h5 hd)) (lt_irrefl _)
      obtain ⟨z', g1, g2, -, -⟩ := column_gen mem hmem st.1 4 exNoisy hg c.1 (by rw [hlen]; omega)
      have hok : BestOk 2 exNoisy 4 2 (fun _ _ => False) st.2 := by
        refine ⟨?_, fun _ _ _ h => h.elim⟩
        rcases hb with h1 | ⟨q, i, h1, h2, h3, -⟩
        · exact Or.inl h1
        · exact Or.inr ⟨q, i, h1, h2, h3⟩
      obtain ⟨best', b1, b2, b3⟩ := hok.improve c.1 (by rw [hlen]; omega)
      have hm : Missed best' := by
        rcases improve_idx b1 with rfl | ⟨r, hr⟩
        · exact hb
        · rcases b2.hit with h1 | ⟨q, i, h1, h2, h3⟩
          · rw [h1.2] at hr; simp at hr
          · rw [h3, Option.some.injEq, Prod.mk.injEq] at hr
            exact Or.inr ⟨q, i, h1, h2, h3, Or.inl (by omega), Or.inl (by omega)⟩
      obtain ⟨st', s1, s2⟩ := ih hL' (z', best') g2 hm (b3.trans hd)
      refine ⟨st', ?_, s2⟩
      rw [g1]
      simp only [bind, Except.bind]
      rw [show (2 : Int) = ((2 : Nat) : Int) from rfl, b1]
      exact s1
    · rw [if_neg hlt]
      obtain ⟨st', s1, s2⟩ := ih hL' st hg hb hd
      exact ⟨st', s1, s2⟩

theorem Missed.wrong {best : Best} (h : Missed best) : ¬ IsMotif 2 exNoisy 4 2 best.idx := by
  have hfar : FarPair exNoisy.length 4 2 0 4 := ⟨by simp [exNoisy], by simp [exNoisy], by omega⟩
  intro hm
  rcases h with ⟨-, h1⟩ | ⟨q, i, h1, -, h2, h3, h4⟩
  · rw [h1] at hm
    exact hm 0 4 hfar
  · rw [h2] at hm
    have h5 := hm.2 0 4 hfar
    have h6 := exNoisy_pos h1 h3 h4
    rw [show zdist 4 2 (seqOf exNoisy) (seqOf exNoisy) 0 4 = 0 from exNoisy_dists.2.1] at h5
    exact absurd h6 (not_lt.mpr h5)

/-- **C59 fails** with noise elimination and a cache that does not hold all pairs: on 2, 6, 3, 3, 14, 14, 11, 11 with a noise deviation of 2, lengths 3 to 4 and one entry
per column (any memory, any order of equal elements in `argsort`) the call returns, and its answer for length 4 is not the best pair: subsequences 0 and 4, at distance 0,
are missed. -/
theorem _root_.Verif.C59_noise_wrong (mem : Mem) (hmem : mem.Ok) (argsort : List (Fl ℝ) → List Nat) (hsort : ∀ v, IsArgsort v (argsort v)) :
    ∃ a c, findMotifs mem argsort (exNoisy.map .fin) 3 4 1 2 = .ok [a, c] ∧ IsMotif 2 exNoisy 3 2 a ∧ ¬ IsMotif 2 exNoisy 4 2 c := by
  have hlen : exNoisy.length = 8 := rfl
  obtain ⟨z, z1, z2⟩ := prepare_gen mem hmem 2 3 (by omega) exNoisy (by rw [hlen]; omega)
  obtain ⟨f, f1, f2, -, f3⟩ := full_ok mem hmem argsort hsort 1 (by omega) exNoisy 3 2 (by omega) (by rw [hlen]; omega) z z2
  obtain ⟨y, y1, y2⟩ := prepare_gen mem hmem 2 4 (by omega) exNoisy (by rw [hlen]; omega)
  obtain ⟨p, p1, p2⟩ := foldlM_range (Pass.column y (exNoisy.map .fin) 4 5 2) (fun t p => NoisyPass t f.lists p) 5 ⟨f.lists, ⟨.pinf, none⟩, []⟩
    ⟨fun _ _ => rfl, Or.inl ⟨rfl, rfl⟩, fun h => absurd h (lt_irrefl _), by simp, by simp, fun h => by omega⟩
    (fun t p ht hp => hp.column y y2.1 ht (f2 t (by rw [hlen]; omega)))
  have hstep : ∃ lists c, lengthStep mem argsort npMin 2 1 2 (exNoisy.map .fin) (f.lists, [f.best.idx]) 4 = .ok (lists, [f.best.idx, c]) ∧ ¬ IsMotif 2 exNoisy 4 2 c := by
    have y1' : prepare mem 2 4 (exNoisy.map .fin) none = .ok y := y1
    unfold lengthStep
    rw [y1']
    simp only [bind, Except.bind, List.length_map]
    have p1' : (List.range ((exNoisy.length : Int) - 4 + 1).toNat).foldlM (Pass.column y (exNoisy.map .fin) 4 ((exNoisy.length : Int) - 4 + 1) 2)
        ⟨f.lists, ⟨.pinf, none⟩, []⟩ = .ok p := p1
    rw [p1']
    simp only
    have hne := p2.some' (by omega)
    obtain ⟨v, v1, -⟩ := npMin_spec (p.invalid.map (·.2)) (by simpa using hne)
    obtain ⟨pr, hpr⟩ : ∃ pr, p.best.idx = some pr := by
      rcases p2.missed with h1 | ⟨q, i, -, -, h1, -⟩
      · have := p2.first (by omega)
        rw [h1.1] at this
        exact absurd (lt_of_le_of_lt this (Fl.fin_lt_pinf _)) (lt_irrefl _)
      · exact ⟨_, h1⟩
    have hacc : p.accept npMin = .ok (p.best.dist.leF v) := by
      unfold Pass.accept
      rw [hpr]
      simp only [v1]
      rfl
    rw [hacc]
    cases hle : p.best.dist.leF v with
    | true => exact ⟨p.lists, p.best.idx, rfl, p2.missed.wrong⟩
    | false =>
      obtain ⟨st', s1, s2, -⟩ := noisy_recalc mem hmem p.invalid p2.inv (y, p.best) y2 p2.missed (p2.first (by omega))
      have hset : settle mem argsort 1 2 ((exNoisy.length : Int) - 4 + 1) y p = .ok (p.lists, st'.2.idx) := by
        unfold settle
        rw [if_neg]
        · rw [s1]
          rfl
        · have h5 : (((exNoisy.length : Int) - 4 + 1 : Int) : ℝ) = 5 := by rw [hlen]; norm_num
          have hlog : (1 : ℝ) ≤ Real.log 5 := by
            rw [Real.le_log_iff_exp_le (by norm_num)]
            exact Real.exp_one_lt_d9.le.trans (by norm_num)
          have hfew : (p.invalid.length : ℝ) ≤ 5 := by exact_mod_cast p2.few
          rw [h5]
          linarith
      refine ⟨p.lists, st'.2.idx, ?_, s2.wrong⟩
      simp only [Bool.false_eq_true, if_false]
      rw [hset]
      rfl
  obtain ⟨lists, c, h1, h2⟩ := hstep
  refine ⟨f.best.idx, c, ?_, f3.motif, h2⟩
  have z1' : prepare mem 2 3 (exNoisy.map .fin) none = .ok z := z1
  have f1' : full mem argsort 1 2 z = .ok f := f1
  unfold findMotifs findMotifsWith
  rw [if_neg (by omega), if_neg (by omega), if_neg (by omega), z1']
  simp only [bind, Except.bind]
  rw [show ((3 : Int) + 1) / 2 = 2 by norm_num, f1']
  simp only
  rw [show pyRange (3 + 1) (4 + 1) = [4] from rfl, List.foldlM_cons, h1]
  rfl

/-- With room for all six subsequences of length 3 the same call is right, or fails with `ValueError` (`C59_partial`). -/
example : (∃ found, findMotifs ZN.zeroMem Ostinato.sortIdx (exNoisy.map .fin) (3 : Nat) (((3 : Nat) : Int) + (1 : Nat)) 6 2 = .ok found ∧ found.length = 2 ∧
    ∀ j, j ≤ 1 → ∃ a, found[j]? = some a ∧ IsMotif 2 exNoisy (3 + j) 2 a) ∨
    findMotifs ZN.zeroMem Ostinato.sortIdx (exNoisy.map .fin) (3 : Nat) (((3 : Nat) : Int) + (1 : Nat)) 6 2 = .error .valueError :=
  C59_partial ZN.zeroMem ZN.zeroMem_ok Ostinato.sortIdx Ostinato.sortIdx_ok 6 (by norm_num) 2 exNoisy 3 1 (by norm_num) (by simp [exNoisy]) (.inl (by simp [exNoisy]))

end Valmod
end Verif
