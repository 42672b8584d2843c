import Verif.Model.ZNormEuclidean
import Verif.Spec.ZNorm
import Verif.Lemmas.ColumnCache
import Verif.Props.MathTricks
import Mathlib.Tactic.FieldSimp
import Mathlib.Algebra.Order.BigOperators.Group.Finset

namespace Verif
open Spec Finset

theorem var_nonneg (m : Nat) (x : Nat → ℝ) (i : Nat) : 0 ≤ var m x i :=
  div_nonneg (Finset.sum_nonneg fun _ _ => sq_nonneg _) (Nat.cast_nonneg m)

theorem std_nonneg (m : Nat) (x : Nat → ℝ) (i : Nat) : 0 ≤ std m x i := Real.sqrt_nonneg _

theorem sum_eq_mean (m : Nat) (hm : 0 < m) (x : Nat → ℝ) (i : Nat) : ∑ k ∈ range m, x (i + k) = m * mean m x i := by
  have : (m : ℝ) ≠ 0 := by exact_mod_cast hm.ne'
  unfold mean; field_simp

theorem sum_centered (m : Nat) (hm : 0 < m) (x : Nat → ℝ) (i : Nat) :
    ∑ k ∈ range m, (x (i + k) - mean m x i) ^ 2 = m * std m x i ^ 2 := by
  have : (m : ℝ) ≠ 0 := by exact_mod_cast hm.ne'
  unfold std
  rw [Real.sq_sqrt (var_nonneg m x i)]
  unfold var; field_simp

theorem sum_cross (m : Nat) (hm : 0 < m) (s q : Nat → ℝ) (i j : Nat) :
    ∑ k ∈ range m, (s (j + k) - mean m s j) * (q (i + k) - mean m q i) =
      (∑ k ∈ range m, s (j + k) * q (i + k)) - m * mean m q i * mean m s j := by
  have h : ∀ k ∈ range m, (s (j + k) - mean m s j) * (q (i + k) - mean m q i) =
      s (j + k) * q (i + k) - mean m q i * s (j + k) - mean m s j * q (i + k) + mean m s j * mean m q i := fun k _ => by ring
  rw [Finset.sum_congr rfl h, Finset.sum_add_distrib, Finset.sum_sub_distrib, Finset.sum_sub_distrib, ← Finset.mul_sum, ← Finset.mul_sum,
    sum_eq_mean m hm, sum_eq_mean m hm]
  simp
  ring

/-- The formula of the code is the squared distance of the z-normalised subsequences. -/
theorem zsq_formula (m : Nat) (hm : 0 < m) (s q : Nat → ℝ) (i j : Nat) (hs : std m s j ≠ 0) (hq : std m q i ≠ 0) :
    2 * ((m : ℝ) - ((∑ k ∈ range m, s (j + k) * q (i + k)) - m * mean m q i * mean m s j) / (std m q i * std m s j)) = zsq m s q i j := by
  have h : ∀ k ∈ range m, ((s (j + k) - mean m s j) / std m s j - (q (i + k) - mean m q i) / std m q i) ^ 2 =
      (1 / std m s j ^ 2) * (s (j + k) - mean m s j) ^ 2 + (1 / std m q i ^ 2) * (q (i + k) - mean m q i) ^ 2 -
        (2 / (std m q i * std m s j)) * ((s (j + k) - mean m s j) * (q (i + k) - mean m q i)) := by
    intro k _
    field_simp
    ring
  unfold zsq
  rw [Finset.sum_congr rfl h, Finset.sum_sub_distrib, Finset.sum_add_distrib, ← Finset.mul_sum, ← Finset.mul_sum, ← Finset.mul_sum,
    sum_centered m hm, sum_centered m hm, sum_cross m hm]
  field_simp
  ring

namespace ZN

theorem dots_spec : FullSpec (fun a b : ℝ => a * b) id dots := by
  intro x w h1 h2
  unfold dots
  rw [if_neg (by rw [List.length_map, List.length_map]; omega), if_pos (by simpa using h2)]
  congr 1
  simp only [List.length_map, windows, List.map_map]
  rw [show x.length - w.length + 1 = x.length + 1 - w.length by omega]
  apply List.map_congr_left
  intro i _
  rw [← List.map_drop, ← List.map_take, zipWith_fin Fl.mul (· * ·) Fl.mul_fin, Fl.sum_fin]
  rfl

/-- Statistics in step with a finite window. -/
structure StatsOk (st : ZStats) (N m : Nat) (x : List ℝ) : Prop where
  mu : st.mu.Good (N + 1 - m)
  std : st.std.Good (N + 1 - m)
  nz : st.nz.Good (N + 1 - m)
  mu_eq : st.mu.items = (windows m x).map npMean
  std_eq : st.std.items = (windows m x).map npStd
  nz_eq : st.nz.items = (windows m x).map fun w => decide (npStd w > flat)

theorem pushStats_ok (st : ZStats) (N m : Nat) (x d : List ℝ) (hm : 0 < m) (hN : m ≤ N) (hd : 0 < d.length) (h : StatsOk st N m x) :
    ∃ st', pushStats st m ((lastN N (x ++ d)).map .fin) d.length = (st', none) ∧ StatsOk st' N m (lastN N (x ++ d)) := by
  unfold pushStats
  by_cases hlen : m ≤ (lastN N (x ++ d)).length
  · rw [if_pos (by rw [List.length_map]; exact_mod_cast hlen)]
    have hfrom : pyFrom ((lastN N (x ++ d)).map Fl.fin) (-((d.length : Int) + (m : Int) - 1)) =
        (lastN (d.length + m - 1) (lastN N (x ++ d))).map Fl.fin := by
      rw [show -((d.length : Int) + (m : Int) - 1) = -((d.length + m - 1 : Nat) : Int) by omega, pyFrom_neg _ _ (by omega), lastN_map]
    rw [hfrom, slidingMeanStd_ok _ m hm (by rw [lastN_length]; omega)]
    set w := windows m (lastN (d.length + m - 1) (lastN N (x ++ d))) with hw
    obtain ⟨b1, p1, g1, i1, -⟩ := h.mu.push (w.map npMean)
    obtain ⟨b2, p2, g2, i2, -⟩ := h.std.push (w.map npStd)
    obtain ⟨b3, p3, g3, i3, -⟩ := h.nz.push ((w.map npStd).map fun x => decide (x > flat))
    simp only [p1, p2, p3]
    have hder := windows_derived m N x d hm hN
    refine ⟨_, rfl, ⟨g1, g2, g3, ?_, ?_, ?_⟩⟩
    · rw [i1, h.mu_eq, ← List.map_append, lastN_map, hder]
    · rw [i2, h.std_eq, ← List.map_append, lastN_map, hder]
    · rw [i3, h.nz_eq, List.map_map]
      rw [show ((fun x => decide (x > flat)) ∘ npStd) = fun w => decide (npStd w > flat) from rfl, ← List.map_append, lastN_map, hder]
  · rw [if_neg (by rw [List.length_map]; exact_mod_cast hlen)]
    have hnew : windows m (lastN N (x ++ d)) = [] := windows_eq_nil _ _ (by omega)
    have hold : windows m x = [] := windows_eq_nil _ _ (by rw [lastN_length, List.length_append] at hlen; omega)
    exact ⟨st, rfl, ⟨h.mu, h.std, h.nz, by rw [h.mu_eq, hold, hnew], by rw [h.std_eq, hold, hnew], by rw [h.nz_eq, hold, hnew]⟩⟩

theorem emptyStats_ok (mem : Mem) (hr : ∀ n, (mem.real n).length = n) (hb : ∀ n, (mem.bool n).length = n) (scale : ℚ) (h1 : 1 ≤ scale)
    (h2 : scale ≤ 2) (n m : Nat) (hm : 0 < m) (h : m ≤ n) : ∃ st, emptyStats mem.real mem.bool scale n m = .ok st ∧ StatsOk st n m [] := by
  unfold emptyStats
  rw [if_neg (by omega)]
  have hk : ((n : Int) - (m : Int) + 1).toNat = n + 1 - m := by omega
  have hw : windows m ([] : List ℝ) = [] := windows_eq_nil _ _ (by simpa using hm)
  simp only [hk]
  refine ⟨_, rfl, ⟨RB.mkEmpty_good_scale scale h1 h2 _ _ _ (by omega) (hr _), RB.mkEmpty_good_scale scale h1 h2 _ _ _ (by omega) (hr _),
    RB.mkEmpty_good_scale scale h1 h2 _ _ _ (by omega) (hb _), ?_, ?_, ?_⟩⟩
  · rw [hw]; exact RB.mkEmpty_items _ _ _
  · rw [hw]; exact RB.mkEmpty_items _ _ _
  · rw [hw]; exact RB.mkEmpty_items _ _ _

/-- Entry `i` of statistics in step with a window. -/
theorem StatsOk.at {st : ZStats} {N m : Nat} {x : List ℝ} (h : StatsOk st N m x) (i : Nat) (hi : i + m ≤ x.length) :
    st.mu.items[i]? = some (mean m (seqOf x) i) ∧ st.std.items[i]? = some (Spec.std m (seqOf x) i) ∧
      st.nz.items[i]? = some (decide (Spec.std m (seqOf x) i > flat)) := by
  have hw : (windows m x)[i]? = some ((x.drop i).take m) := by rw [windows_getElem?, if_pos (by omega)]
  refine ⟨?_, ?_, ?_⟩
  · rw [h.mu_eq, List.getElem?_map, hw, Option.map_some, npMean_window x m i hi]
  · rw [h.std_eq, List.getElem?_map, hw, Option.map_some, npStd_window x m i hi]
  · rw [h.nz_eq, List.getElem?_map, hw, Option.map_some, npStd_window x m i hi]

theorem StatsOk.len {st : ZStats} {N m : Nat} {x : List ℝ} (h : StatsOk st N m x) :
    st.mu.items.length = x.length + 1 - m ∧ st.std.items.length = x.length + 1 - m ∧ st.nz.items.length = x.length + 1 - m := by
  refine ⟨?_, ?_, ?_⟩
  · rw [h.mu_eq]; simp
  · rw [h.std_eq]; simp
  · rw [h.nz_eq]; simp

/-- The entries calculated by columns and diagonals are the specified squared distance (clamped). -/
theorem entry_value (m : Nat) (hm : 0 < m) (noise : ℝ) (s q : Nat → ℝ) (i j : Nat) :
    colEntry m noise (decide (Spec.std m s j > flat)) (mean m s j) (Spec.std m s j) (.fin (∑ k ∈ range m, s (j + k) * q (i + k)))
        (mean m q i) (Spec.std m q i) (decide (Spec.std m q i > flat)) =
      .fin (if znoise m noise s q i j < 1 / 10 ^ 12 then 0 else znoise m noise s q i j) ∧
    diagEntry m noise (.fin (∑ k ∈ range m, s (j + k) * q (i + k))) (mean m q i) (Spec.std m q i) (decide (Spec.std m q i > flat))
        (mean m s j) (Spec.std m s j) (decide (Spec.std m s j > flat)) =
      .fin (if znoise m noise s q i j < 1 / 10 ^ 12 then 0 else znoise m noise s q i j) := by
  have hfl : (0 : ℝ) < flat := by unfold flat; positivity
  have clampEq : ∀ v : ℝ, (if (Fl.fin v).ltF (.fin eps) then (Fl.fin 0 : Fl ℝ) else .fin v) = .fin (if v < 1 / 10 ^ 12 then 0 else v) := by
    intro v
    unfold Fl.ltF eps
    simp only [Fl.fin_lt_fin, ne_eq, reduceCtorEq, not_false_eq_true, decide_true, Bool.and_true, decide_eq_true_eq]
    split <;> rfl
  have hF : ∀ x : Nat → ℝ, ∀ i, Flat m x i ↔ ¬ (Spec.std m x i > flat) := fun x i => by unfold Flat flat; rw [not_lt]
  have hdiv : ∀ a b : ℝ, b ≠ 0 → Fl.div (.fin a) (.fin b) = .fin (a / b) := fun a b hb => by simp [Fl.div, hb]
  have hmax : (Spec.std m s j > flat ∨ Spec.std m q i > flat) → max (Spec.std m s j) (Spec.std m q i) ^ 2 ≠ 0 := by
    intro h
    have : 0 < max (Spec.std m s j) (Spec.std m q i) := by
      rcases h with h | h
      · exact lt_max_of_lt_left (hfl.trans h)
      · exact lt_max_of_lt_right (hfl.trans h)
    positivity
  unfold colEntry diagEntry znoise zflat
  simp only [hF]
  by_cases h1 : Spec.std m s j > flat <;> by_cases h2 : Spec.std m q i > flat
  · have n1 : Spec.std m s j ≠ 0 := (hfl.trans h1).ne'
    have n2 : Spec.std m q i ≠ 0 := (hfl.trans h2).ne'
    have hz := zsq_formula m hm s q i j n1 n2
    by_cases h3 : noise = 0
    · simp [h1, h2, h3, hdiv _ _ (mul_ne_zero n2 n1), clampEq, hz]
    · simp [h1, h2, h3, hdiv _ _ (mul_ne_zero n2 n1), hdiv _ _ (hmax (Or.inl h1)), clampEq, hz]
  · by_cases h3 : noise = 0
    · simp [h1, h2, h3, clampEq]
    · simp [h1, h2, h3, hdiv _ _ (hmax (Or.inl h1)), clampEq]
  · by_cases h3 : noise = 0
    · simp [h1, h2, h3, clampEq]
    · simp [h1, h2, h3, hdiv _ _ (hmax (Or.inr h2)), clampEq]
  · have : (0 : ℝ) < 1 / 10 ^ 12 := by positivity
    simp [h1, h2]

end ZN
end Verif
