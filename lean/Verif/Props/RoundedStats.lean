import Verif.Model.RoundedStats
import Verif.Spec.RoundedStats
import Verif.Props.RoundedZNormRange
import Mathlib.Algebra.Order.Chebyshev

/-! C87: accuracy of `np.mean`, `np.std` and direct convolution in floating point, and what follows for z-normalised distances. -/

namespace Verif
open Spec

/-! ### Sums -/

section
variable {K : Type} [Field K] [LinearOrder K] [IsStrictOrderedRing K] {rnd : K → K} {u η : K}

theorem Close.div {k n : Nat} {A v S : K} (h : Close u η k n A v S) (hu : 0 ≤ u) (hη : 0 ≤ η) {c : K} (hc : 1 ≤ c) :
    Close u η k n (A / c) (v / c) (S / c) := by
  have hc0 : 0 < c := by linarith
  refine ⟨by rw [abs_div, abs_of_pos hc0]; exact div_le_div_of_nonneg_right h.mag hc0.le, ?_⟩
  rw [← sub_div, abs_div, abs_of_pos hc0, div_le_iff₀ hc0]
  refine h.err.trans ?_
  unfold roundErr
  have h1 : (0 : K) ≤ (1 + u) ^ k * (n * η) := mul_nonneg (pow_nonneg (by linarith) _) (mul_nonneg (Nat.cast_nonneg n) hη)
  have h2 : ((1 + u) ^ k * (A / c + n * η) - A / c) * c = (1 + u) ^ k * A - A + (1 + u) ^ k * (n * η) * c := by
    field_simp; ring
  rw [h2]
  nlinarith

namespace RoundedZ

/-- A sum calculated in any order is close to the exact one. -/
theorem SumEval.close (hr : IsRounding rnd u η) {l : List K} {v : K} (h : SumEval rnd l v) :
    1 ≤ l.length ∧ Close u η (l.length - 1) (l.length - 1) (l.map fun x => |x|).sum v l.sum := by
  have hu := hr.u_nonneg
  have hη := hr.η_nonneg
  induction h with
  | one x => exact ⟨by simp, by simpa using Close.exact (u := u) (η := η) x⟩
  | @add l l' l'' a b h h' hp ih ih' =>
    obtain ⟨i1, i2⟩ := ih
    obtain ⟨j1, j2⟩ := ih'
    have hlen : l''.length = l.length + l'.length := by rw [hp.length_eq, List.length_append]
    refine ⟨by omega, ?_⟩
    rw [hp.sum_eq, (hp.map _).sum_eq, List.map_append, List.sum_append, List.sum_append, hlen]
    have h1 := ((i2.mono hu hη (k' := l.length + l'.length - 2) (by omega) le_rfl le_rfl).add
      (j2.mono hu hη (k' := l.length + l'.length - 2) (by omega) le_rfl le_rfl)).round hr
    rwa [show l.length + l'.length - 2 + 1 = l.length + l'.length - 1 by omega,
      show l.length - 1 + (l'.length - 1) + 1 = l.length + l'.length - 1 by omega] at h1

theorem MeanEval.close (hr : IsRounding rnd u η) {w : List K} {μ L : K} (h : MeanEval rnd w μ) (hb : ∀ y ∈ w, |y| ≤ L) :
    |μ - w.sum / (w.length : K)| ≤ meanErr u η w.length L := by
  obtain ⟨S, h1, rfl⟩ := h
  obtain ⟨i1, i2⟩ := h1.close hr
  have hl : (1 : K) ≤ w.length := by exact_mod_cast i1
  have h2 : (w.map fun x => |x|).sum ≤ w.length * L := by
    clear h1 i1 i2 hl
    induction w with
    | nil => simp
    | cons x w ih =>
      have h1 := ih fun y hy => hb y (by simp [hy])
      have h2 := hb x (by simp)
      simp only [List.map_cons, List.sum_cons, List.length_cons]
      push_cast
      linarith
  have h3 := ((i2.div hr.u_nonneg hr.η_nonneg hl).round hr).mono hr.u_nonneg hr.η_nonneg (k' := w.length) (n' := w.length) (A' := L)
    (by omega) (by omega) (by rw [div_le_iff₀ (by linarith), mul_comm]; exact h2)
  exact h3.err

/-- A sum of squares is not negative: the root is defined. -/
theorem squares_nonneg (hr : IsRounding rnd u η) {l : List (K × K)} {v : K} (h : Rounded.DotEval rnd l v) (hl : ∀ p ∈ l, p.1 = p.2) : 0 ≤ v := by
  induction h with
  | mul x y => have := hl (x, y) (by simp); simp only at this; rw [this]; exact hr.nonneg (mul_self_nonneg y)
  | @add l l' l'' a b h h' hp ih ih' =>
    exact hr.nonneg (add_nonneg (ih fun p hp' => hl p (hp.mem_iff.2 (by simp [hp']))) (ih' fun p hp' => hl p (hp.mem_iff.2 (by simp [hp']))))
  | @fma l l'' a x y h hp ih =>
    have := hl (x, y) (hp.mem_iff.2 (by simp))
    simp only at this
    rw [this]
    exact hr.nonneg (add_nonneg (ih fun p hp' => hl p (hp.mem_iff.2 (by simp [hp']))) (mul_self_nonneg y))

end RoundedZ
end

/-! ### Roots -/

/-- The root of a quantity known up to `ε T + e`. -/
theorem sqrt_near {V T ε e : ℝ} (hT : 0 ≤ T) (hε : 0 ≤ ε) (he : 0 ≤ e) (h : |V - T| ≤ ε * T + e) : |√V - √T| ≤ ε * √T + √e := by
  obtain ⟨h1, h2⟩ := abs_le.1 h
  have hT' := Real.sqrt_nonneg T
  have hsT := Real.sq_sqrt hT
  have hse := Real.sq_sqrt he
  have he' := Real.sqrt_nonneg e
  rw [abs_le]
  constructor
  · -- √T ≤ √V + ε √T + √e
    rcases le_or_gt 1 ε with h3 | h3
    · have := Real.sqrt_nonneg V
      nlinarith
    · have h4 : (1 - ε) * √T ≤ √(max V 0 + e) := by
        apply Real.le_sqrt_of_sq_le
        rw [mul_pow, hsT]
        have : V ≤ max V 0 := le_max_left _ _
        nlinarith [mul_nonneg (mul_nonneg hε (by linarith : (0 : ℝ) ≤ 1 - ε)) hT]
      have h5 : √(max V 0 + e) ≤ √V + √e := by
        have : √(max V 0) = √V := by
          rcases le_total V 0 with h | h
          · rw [max_eq_right h, Real.sqrt_eq_zero_of_nonpos h, Real.sqrt_zero]
          · rw [max_eq_left h]
        rw [← this]
        apply Real.sqrt_le_iff.2
        refine ⟨by positivity, ?_⟩
        have h6 := Real.sq_sqrt (le_max_right V 0)
        have := mul_nonneg (Real.sqrt_nonneg (max V 0)) he'
        nlinarith
      linarith
  · -- √V ≤ √T + ε √T + √e
    have : √V ≤ (1 + ε) * √T + √e := by
      apply Real.sqrt_le_iff.2
      refine ⟨by positivity, ?_⟩
      have : 0 ≤ (1 + ε) * √T * √e := by positivity
      nlinarith [mul_nonneg hε hT, mul_nonneg (mul_nonneg hε hε) hT]
    linarith

/-- The root mean square of values known with error `δ`. -/
theorem rms_near (m : Nat) (hm : 0 < m) (t d : Nat → ℝ) (δ : ℝ) (h : ∀ k, k < m → |t k - d k| ≤ δ) :
    √((∑ k ∈ Finset.range m, t k ^ 2) / m) ≤ √((∑ k ∈ Finset.range m, d k ^ 2) / m) + δ := by
  have hmm : (0 : ℝ) < m := by exact_mod_cast hm
  have hδ : 0 ≤ δ := (abs_nonneg _).trans (h 0 hm)
  set V := (∑ k ∈ Finset.range m, d k ^ 2) / m with hV
  have hV0 : 0 ≤ V := div_nonneg (Finset.sum_nonneg fun k _ => sq_nonneg _) hmm.le
  apply Real.sqrt_le_iff.2
  refine ⟨by positivity, ?_⟩
  have h1 : ∑ k ∈ Finset.range m, |d k| ≤ m * √V := by
    have h2 := sq_sum_le_card_mul_sum_sq (s := Finset.range m) (f := fun k => |d k|)
    simp only [Finset.card_range, sq_abs] at h2
    have h3 : ∑ k ∈ Finset.range m, d k ^ 2 = m * V := by rw [hV]; field_simp
    rw [h3] at h2
    apply le_of_sq_le_sq _ (by positivity)
    rw [mul_pow, Real.sq_sqrt hV0]
    linarith
  have h2 : ∑ k ∈ Finset.range m, t k ^ 2 ≤ ∑ k ∈ Finset.range m, (d k ^ 2 + 2 * δ * |d k| + δ ^ 2) := by
    apply Finset.sum_le_sum
    intro k hk
    have h3 := h k (Finset.mem_range.1 hk)
    have h4 : |t k| ≤ |d k| + δ := by
      have := abs_add_le (t k - d k) (d k)
      rw [sub_add_cancel] at this
      linarith
    have := mul_self_le_mul_self (abs_nonneg _) h4
    rw [abs_mul_abs_self] at this
    have := abs_mul_abs_self (d k)
    nlinarith
  rw [Finset.sum_add_distrib, Finset.sum_add_distrib, ← Finset.mul_sum] at h2
  simp only [Finset.sum_const, Finset.card_range, nsmul_eq_mul] at h2
  rw [div_le_iff₀ hmm]
  have h3 : ∑ k ∈ Finset.range m, d k ^ 2 = m * V := by rw [hV]; field_simp
  have h4 : (√V + δ) ^ 2 * m = m * V + 2 * δ * (m * √V) + m * δ ^ 2 := by
    rw [add_sq, Real.sq_sqrt hV0]; ring
  rw [h4]
  nlinarith

namespace RoundedZ
variable {rnd : ℝ → ℝ} {u η : ℝ}

theorem StdEval.close (hr : IsRounding rnd u η) {w : List ℝ} {σ L : ℝ} (h : StdEval rnd w σ) (hb : ∀ y ∈ w, |y| ≤ L) :
    |σ - std w.length (seqOf w) 0| ≤ stdErr u η w.length L := by
  have hu := hr.u_nonneg
  have hη := hr.η_nonneg
  obtain ⟨μ, S, h1, h2, rfl⟩ := h
  have hm : 1 ≤ w.length := by obtain ⟨S, h, -⟩ := h1; exact (h.close hr).1
  have hmm : (1 : ℝ) ≤ w.length := by exact_mod_cast hm
  have hL : 0 ≤ L := (abs_nonneg _).trans (seqOf_abs_le hb 0 (by omega))
  have hμ := h1.close hr hb
  have emean := npMean_window w w.length 0 (by omega)
  rw [List.drop_zero, List.take_length] at emean
  unfold npMean at emean
  rw [emean] at hμ
  obtain ⟨-, h3⟩ := h2.close hr
  have hsum : ((w.map fun x => (rnd (x - μ), rnd (x - μ))).map fun p => p.1 * p.2).sum =
      ∑ k ∈ Finset.range w.length, rnd (seqOf w k - μ) ^ 2 := by
    have := sum_window w (fun x => rnd (x - μ) ^ 2) w.length 0 (by omega)
    rw [List.drop_zero, List.take_length] at this
    simp only [Nat.zero_add] at this
    rw [← this, List.map_map]
    congr 1
    exact List.map_congr_left fun x _ => by simp [sq]
  have habs : absDot (w.map fun x => (rnd (x - μ), rnd (x - μ))) = ∑ k ∈ Finset.range w.length, rnd (seqOf w k - μ) ^ 2 := by
    rw [← hsum]
    unfold absDot
    congr 1
    apply List.map_congr_left
    intro p hp
    obtain ⟨x, -, rfl⟩ := List.mem_map.1 hp
    exact abs_mul_self _
  rw [hsum, habs, List.length_map] at h3
  set T := (∑ k ∈ Finset.range w.length, rnd (seqOf w k - μ) ^ 2) / w.length with hT
  have hT0 : 0 ≤ T := div_nonneg (Finset.sum_nonneg fun k _ => sq_nonneg _) (by linarith)
  have h4 := ((h3.div hu hη hmm).round hr).err
  rw [← hT] at h4
  set δ := deviationErr u η w.length L with hδ
  have hdev : ∀ k, k < w.length → |rnd (seqOf w k - μ) - (seqOf w k - mean w.length (seqOf w) 0)| ≤ δ := by
    intro k hk
    apply round_close hr
    · rw [show seqOf w k - μ - (seqOf w k - mean w.length (seqOf w) 0) = -(μ - mean w.length (seqOf w) 0) by ring, abs_neg]; exact hμ
    · have h5 := seqOf_abs_le hb k hk
      have h6 := mean_abs_le (s := seqOf w) (j := 0) (L := L) hm fun k hk => seqOf_abs_le hb _ (by omega)
      have := abs_sub (seqOf w k) (mean w.length (seqOf w) 0)
      linarith
  have hstd : std w.length (seqOf w) 0 = √((∑ k ∈ Finset.range w.length, (seqOf w k - mean w.length (seqOf w) 0) ^ 2) / w.length) := by
    unfold std var; simp only [Nat.zero_add]
  have h5 : √T ≤ std w.length (seqOf w) 0 + δ := by rw [hstd]; exact rms_near _ hm _ _ δ hdev
  have h6 : std w.length (seqOf w) 0 ≤ √T + δ := by
    rw [hstd]
    exact rms_near _ hm _ _ δ fun k hk => by rw [abs_sub_comm]; exact hdev k hk
  have h7 : std w.length (seqOf w) 0 ≤ L := std_le hm fun k hk => seqOf_abs_le hb _ (by omega)
  have hp : (1 : ℝ) ≤ (1 + u) ^ (w.length + 1) := one_le_pow₀ (by linarith)
  have h8 := sqrt_near (V := rnd (S / w.length)) (T := T) (ε := (1 + u) ^ (w.length + 1) - 1)
    (e := (1 + u) ^ (w.length + 1) * ((w.length + 1 : Nat) * η)) hT0 (by linarith) (by positivity) (h4.trans (le_of_eq (by unfold roundErr; ring)))
  have h9 : ((1 + u) ^ (w.length + 1) - 1) * √T ≤ roundErr u 0 (w.length + 1) 0 (L + δ) := by
    unfold roundErr
    nlinarith [mul_le_mul_of_nonneg_left (h5.trans (add_le_add_left h7 δ)) (by linarith : (0 : ℝ) ≤ (1 + u) ^ (w.length + 1) - 1)]
  apply round_close hr
  · have h10 := abs_add_le (√(rnd (S / w.length)) - √T) (√T - std w.length (seqOf w) 0)
    rw [sub_add_sub_cancel] at h10
    have h11 : |√T - std w.length (seqOf w) 0| ≤ δ := abs_le.2 ⟨by linarith, by linarith⟩
    linarith
  · rw [abs_of_nonneg (std_nonneg _ _ _)]; exact h7


theorem StatWithin.mono {m : Nat} {L L' eμ eσ eμ' eσ' : ℝ} {stat : Stat ℝ} (h : StatWithin m L eμ eσ stat) (hL : L' ≤ L) (hμ : eμ ≤ eμ')
    (hσ : eσ ≤ eσ') : StatWithin m L' eμ' eσ' stat := fun w hw hb =>
  ⟨(h w hw fun y hy => (hb y hy).trans hL).1.trans hμ, (h w hw fun y hy => (hb y hy).trans hL).2.trans hσ⟩

theorem sumLeft_eval {K : Type} [Field K] (rnd : K → K) (l : List K) (h : l ≠ []) : SumEval rnd l (sumLeft rnd l) := by
  have aux : ∀ (l done : List K) (a : K), SumEval rnd done a → SumEval rnd (done ++ l) (l.foldl (fun a b => rnd (a + b)) a) := by
    intro l
    induction l with
    | nil => intro done a h; simpa using h
    | cons x l ih =>
      intro done a h
      have := ih (done ++ [x]) (rnd (a + x)) (.add h (.one x) (List.Perm.refl _))
      simpa using this
  cases l with
  | nil => exact absurd rfl h
  | cons x l => exact aux l [x] x (.one x)

theorem squaresLeft_eval {K : Type} [Field K] [LinearOrder K] (rnd : K → K) (l : List K) (h : l ≠ []) :
    Rounded.DotEval rnd (l.map fun t => (t, t)) (sumLeft rnd (l.map fun t => rnd (t * t))) := by
  have aux : ∀ (l : List K) (done : List (K × K)) (a : K), Rounded.DotEval rnd done a →
      Rounded.DotEval rnd (done ++ l.map fun t => (t, t)) ((l.map fun t => rnd (t * t)).foldl (fun a b => rnd (a + b)) a) := by
    intro l
    induction l with
    | nil => intro done a h; simpa using h
    | cons x l ih =>
      intro done a h
      have := ih (done ++ [(x, x)]) (rnd (a + rnd (x * x))) (.add h (.mul x x) (List.Perm.refl _))
      simpa using this
  cases l with
  | nil => exact absurd rfl h
  | cons x l => exact aux l [(x, x)] (rnd (x * x)) (.mul x x)

/-- Adding from the left is one of the orders. -/
theorem Stat.left_direct (rnd : ℝ → ℝ) : (Stat.left rnd).Direct rnd := by
  intro w hw
  have hμ : MeanEval rnd w ((Stat.left rnd).mean w) := ⟨_, sumLeft_eval rnd w hw, rfl⟩
  refine ⟨hμ, (Stat.left rnd).mean w, _, hμ, ?_, rfl⟩
  have := squaresLeft_eval rnd (w.map fun x => rnd (x - (Stat.left rnd).mean w)) (by simpa using hw)
  rwa [List.map_map, List.map_map] at this

/-- The direct evaluation of all dot products from the left is one of the orders. -/
theorem convLeft_direct {K : Type} [Field K] [LinearOrder K] (rnd : K → K) : ConvDirect rnd (convLeft rnd) := by
  intro x w hw hx
  have hw0 : 0 < w.length := List.length_pos_iff.2 hw
  have key : ∀ i, i + w.length ≤ x.length → ∃ v, (Rounded.Dots.left rnd).rows (((x.map .fin).drop i).take w.length) (w.map .fin) = .fin v ∧
      Rounded.DotEval rnd (((x.drop i).take w.length).zip w) v := by
    intro i hi
    have hl : ((x.drop i).take w.length).length = w.length := by rw [List.length_take, List.length_drop]; omega
    obtain ⟨v, v1, v2⟩ := (Rounded.left_ok rnd).rows ((x.drop i).take w.length) w (by intro h; rw [h] at hl; simp at hl; omega) hl
    exact ⟨v, by rw [← List.map_drop, ← List.map_take]; exact v1, v2⟩
  choose! f f1 f2 using key
  refine ⟨(List.range (x.length + 1 - w.length)).map f, ?_, by simp, ?_⟩
  · unfold convLeft
    rw [List.length_map, List.length_map, List.map_map]
    congr 1
    apply List.map_congr_left
    intro i hi
    rw [List.mem_range] at hi
    exact f1 i (by omega)
  · intro i v hv
    by_cases hi : i < x.length + 1 - w.length
    · rw [List.getElem?_map, List.getElem?_range hi] at hv
      cases hv
      exact f2 i (by omega)
    · rw [List.getElem?_eq_none (by simp; omega)] at hv
      cases hv

end RoundedZ

open RoundedZ in
/-- **C87** for `np.mean` and `np.std`: added up in whatever order, of windows of `m` values of absolute value at most `L`, they are within
`meanErr` and `stdErr` of the mean and the standard deviation, in any floating point arithmetic without overflow. -/
theorem C87_statistics (rnd : ℝ → ℝ) (u η : ℝ) (hr : IsRounding rnd u η) (stat : Stat ℝ) (hs : stat.Direct rnd) (m : Nat) (hm : 0 < m) (L : ℝ)
    (w : List ℝ) (hw : w.length = m) (hb : ∀ y ∈ w, |y| ≤ L) :
    |stat.mean w - mean m (seqOf w) 0| ≤ meanErr u η m L ∧ |stat.std w - std m (seqOf w) 0| ≤ stdErr u η m L := by
  subst hw
  obtain ⟨h1, h2⟩ := hs w (by rw [← List.length_pos_iff]; exact hm)
  refine ⟨?_, h2.close hr hb⟩
  have := h1.close hr hb
  have emean := npMean_window w w.length 0 (by omega)
  rw [List.drop_zero, List.take_length] at emean
  unfold npMean at emean
  rwa [emean] at this

open RoundedZ in
/-- **C87** for the direct convolution: every value is within `roundErr u η m m (m L²)` of the dot product. -/
theorem C87_convolve {K : Type} [Field K] [LinearOrder K] [IsStrictOrderedRing K] (rnd : K → K) (u η : K) (hr : IsRounding rnd u η)
    (conv : List (Fl K) → List (Fl K) → Except PyErr (List (Fl K))) (hc : ConvDirect rnd conv) (m : Nat) (hm : 0 < m) (L : K)
    (x w : List K) (hw : w.length = m) (hx : m ≤ x.length) (hb : ∀ y ∈ x ++ w, |y| ≤ L) :
    ∃ vs : List K, conv (x.map .fin) (w.map .fin) = .ok (vs.map .fin) ∧ vs.length = x.length + 1 - m ∧
      ∀ i v, vs[i]? = some v → |v - ∑ k ∈ Finset.range m, seqOf x (i + k) * seqOf w k| ≤ roundErr u η m m (m * L ^ 2) := by
  subst hw
  obtain ⟨vs, h1, h2, h3⟩ := hc x w (by rw [← List.length_pos_iff]; exact hm) hx
  refine ⟨vs, h1, h2, fun i v hv => ?_⟩
  have hi : i + w.length ≤ x.length := by
    have := (List.getElem?_eq_some_iff.1 hv).1; omega
  have v2 := h3 i v hv
  have hl : ((x.drop i).take w.length).length = w.length := by rw [List.length_take, List.length_drop]; omega
  have hz : (((x.drop i).take w.length).zip w).length = w.length := by rw [List.length_zip, hl, Nat.min_self]
  obtain ⟨-, hc⟩ := v2.close hr
  have hle := absDot_le (((x.drop i).take w.length).zip w) L (by
    intro p hp
    have := List.of_mem_zip hp
    exact ⟨hb _ (List.mem_append_left _ (List.mem_of_mem_drop (List.mem_of_mem_take this.1))), hb _ (List.mem_append_right _ this.2)⟩)
  rw [hz] at hc hle
  have := (hc.mono hr.u_nonneg hr.η_nonneg le_rfl le_rfl hle).err
  have hs := pairSum_windows (fun a b : K => a * b) w.length x w 0 i hi (by omega)
  rw [List.drop_zero, show w.take w.length = w from List.take_length] at hs
  unfold pairSum at hs
  rw [show ((((x.drop i).take w.length).zip w).map fun p => p.1 * p.2) = List.zipWith (fun a b => a * b) ((x.drop i).take w.length) w by
    rw [List.zip, List.map_zipWith], hs] at this
  simpa using this

open RoundedZ in
/-- **C87** for `calc_column`: C85 with nothing assumed of `np.mean`, `np.std` and `convolve` but that they calculate directly, in any order. -/
theorem C87_column (rnd : ℝ → ℝ) (u η : ℝ) (hr : IsRounding rnd u η) (stat : Stat ℝ) (hstat : stat.Direct rnd)
    (conv : List (Fl ℝ) → List (Fl ℝ) → Except PyErr (List (Fl ℝ))) (hconv : ConvDirect rnd conv) (m : Nat) (L eσ τ φ noise : ℝ) (B : Nat → ℝ)
    (hσ : eσ = stdErr u η m L) (hD : devErr u η L eσ < τ ^ 2) (hτ : 1 / 10 ^ 6 < τ)
    (hτ' : rnd (1 / 10 ^ 6) + eσ < τ) (hφ : φ ≤ 1 / 10 ^ 6) (hφ' : φ + eσ ≤ rnd (1 / 10 ^ 6)) (mem : Mem ℝ) (hmem : mem.Ok) (N : Nat)
    (M : Option Nat) (z0 : Gen ℝ) (st0 : GSt ℝ) (hm : 0 < m) (h0 : Fresh rnd stat mem m noise z0 N M st0) (ops : List (GOp ℝ)) (c : Nat)
    (hok : st0.All N M (fun st op => st.Valid m M op ∧ st.Safe op ∧ ∀ x ∈ st.s ++ st.q, |x| ≤ L) (ops ++ [.column c]))
    (hB : ∀ i, B i = znormErr u η (rnd (1 / 10 ^ 12)) m L (meanErr u η m L) eσ τ noise
      (dotColumnErr u η m L (roundErr u η m m (m * L ^ 2)) (min (Rounded.columns ops + 1) i))) :
    ∃ z z' vs s q, s = (st0.run N M ops).s ∧ q = (st0.run N M ops).q ∧ RoundedZ.run rnd stat conv mem Real.sqrt z0 ops = .ok z ∧
      RoundedZ.calcColumn rnd conv mem.fl Real.sqrt z c = .ok (z', vs) ∧ vs.length = q.length + 1 - m ∧
      ∀ i, i + m ≤ q.length → Clear τ φ (std m (seqOf s) c) → Clear τ φ (std m (seqOf q) i) → ∃ y, vs[i]? = some (.fin y) ∧ 0 ≤ y ∧
        |y - zdist m noise (seqOf s) (seqOf q) i c| ≤ (1 + u) * √(B i) + u * zdist m noise (seqOf s) (seqOf q) i c + η := by
  subst hσ
  exact C85_column rnd u η hr stat conv m L _ _ _ τ φ noise B (roundErr_nonneg hr.u_nonneg hr.η_nonneg (by positivity) m m)
    (fun w hw hb => C87_statistics rnd u η hr stat hstat m hm L w hw hb)
    (fun x w hw hx hb => C87_convolve rnd u η hr conv hconv m hm L x w hw hx hb) hD hτ hτ' hφ hφ' mem hmem N M z0 st0 hm h0 ops c hok hB

open RoundedZ in
/-- **C87** for `calc_diagonal`. -/
theorem C87_diagonal (rnd : ℝ → ℝ) (u η : ℝ) (hr : IsRounding rnd u η) (stat : Stat ℝ) (hstat : stat.Direct rnd)
    (conv : List (Fl ℝ) → List (Fl ℝ) → Except PyErr (List (Fl ℝ))) (m : Nat) (L eσ τ φ noise : ℝ)
    (hσ : eσ = stdErr u η m L) (hD : devErr u η L eσ < τ ^ 2) (hτ : 1 / 10 ^ 6 < τ)
    (hτ' : rnd (1 / 10 ^ 6) + eσ < τ) (hφ : φ ≤ 1 / 10 ^ 6) (hφ' : φ + eσ ≤ rnd (1 / 10 ^ 6)) (mem : Mem ℝ) (hmem : mem.Ok) (N : Nat)
    (M : Option Nat) (z0 z : Gen ℝ) (st0 : GSt ℝ) (hm : 0 < m) (h0 : Fresh rnd stat mem m noise z0 N M st0) (ops : List (GOp ℝ))
    (hrun : RoundedZ.run rnd stat conv mem Real.sqrt z0 ops = .ok z) (d : Int) (hd : (st0.run N M ops).Valid m M (.diag d))
    (hb : ∀ x ∈ (st0.run N M ops).s ++ (st0.run N M ops).q, |x| ≤ L) :
    ∃ vs s q, s = (st0.run N M ops).s ∧ q = (st0.run N M ops).q ∧ RoundedZ.calcDiagonal rnd Real.sqrt z d = .ok vs ∧
      vs.length = diagEntries m q.length s.length d ∧
      ∀ k i j, k < diagEntries m q.length s.length d → i = (-d).toNat + k → j = d.toNat + k → Clear τ φ (std m (seqOf s) j) →
        Clear τ φ (std m (seqOf q) i) → ∃ y, vs[k]? = some (.fin y) ∧ 0 ≤ y ∧
          |y - zdist m noise (seqOf s) (seqOf q) i j| ≤
            (1 + u) * √(znormErr u η (rnd (1 / 10 ^ 12)) m L (meanErr u η m L) eσ τ noise
              (roundErr u η (k + m + 2) (k + m + k) ((k + m + k : Nat) * L ^ 2))) +
            u * zdist m noise (seqOf s) (seqOf q) i j + η := by
  subst hσ
  exact C85_diagonal rnd u η hr stat conv m L _ _ τ φ noise (fun w hw hb => C87_statistics rnd u η hr stat hstat m hm L w hw hb)
    hD hτ hτ' hφ hφ' mem hmem N M z0 z st0 hm h0 ops hrun d hd hb

/-! ### In numbers -/

section
variable {K : Type} [Field K] [LinearOrder K] [IsStrictOrderedRing K] {rnd : K → K} {u η : K}

theorem dotColumnErr_mono (hr : IsRounding rnd u η) (m : Nat) {L E : K} (hL : 0 ≤ L) (hE : 0 ≤ E) {n n' : Nat} (h : n ≤ n') :
    dotColumnErr u η m L E n ≤ dotColumnErr u η m L E n' := by
  have hu := hr.u_nonneg
  unfold dotColumnErr
  have h1 : 0 ≤ rounded u η (L ^ 2) 0 := rounded_nonneg hr (by positivity) le_rfl
  have h2 : 0 ≤ rounded u η (m * L ^ 2) (rounded u η (m * L ^ 2) (rounded u η (L ^ 2) 0) + rounded u η (L ^ 2) 0) :=
    rounded_nonneg hr (by positivity) (add_nonneg (rounded_nonneg hr (by positivity) h1) h1)
  have h3 : (n : K) ≤ n' := by exact_mod_cast h
  apply mul_le_mul (pow_le_pow_right₀ (by linarith) (by omega)) _ (by positivity) (by positivity)
  nlinarith

theorem znormErr_mono (hr : IsRounding rnd u η) (m : Nat) {eps eps' L μ σ τ noise E E' : K} (hD : devErr u η L σ < τ ^ 2) (he : eps ≤ eps') (h : E ≤ E') :
    znormErr u η eps m L μ σ τ noise E ≤ znormErr u η eps' m L μ σ τ noise E' := by
  have hc : corrErr u η m L μ σ τ E ≤ corrErr u η m L μ σ τ E' := by
    unfold corrErr
    apply rounded_mono hr
    apply mul_le_mul_of_nonneg_left _ (by norm_num)
    apply rounded_mono hr
    apply rounded_mono hr
    apply div_le_div_of_nonneg_right _ (by linarith)
    have := rounded_mono hr (A := (m : K) * L ^ 2)
      (add_le_add_left h (rounded u η (m * L ^ 2) (prodErr (m * L) (rounded u η (m * L) (m * μ)) L μ)))
    linarith
  unfold znormErr
  exact add_le_add (rounded_mono hr (add_le_add_left hc _)) (max_le_max le_rfl he)

end

theorem znormErr_cast (u η eps : ℚ) (m : Nat) (L μ σ τ noise E : ℚ) :
    ((znormErr u η eps m L μ σ τ noise E : ℚ) : ℝ) = znormErr (u : ℝ) η eps m L μ σ τ noise E := by
  unfold znormErr corrErr noiseErr noiseMax devErr rounded prodErr
  push_cast
  rfl

theorem dotColumnErr_cast (u η : ℚ) (m : Nat) (L E : ℚ) (n : Nat) :
    ((dotColumnErr u η m L E n : ℚ) : ℝ) = dotColumnErr (u : ℝ) η m L E n := by
  unfold dotColumnErr rounded
  push_cast
  rfl

theorem b64_eps : b64 (1 / 10 ^ 12 : ℝ) ≤ 2 / 10 ^ 12 := by
  have hr := b64_isRounding (K := ℝ)
  have h := (abs_le.1 (hr.err (1 / 10 ^ 12 : ℝ))).2
  rw [abs_of_pos (by positivity : (0 : ℝ) < 1 / 10 ^ 12)] at h
  have hu : (2 : ℝ) ^ (-53 : ℤ) ≤ 1 / 10 := by
    rw [zpow_neg, ← one_div]; apply one_div_le_one_div_of_le (by norm_num); norm_num
  have hη : (2 : ℝ) ^ (-1075 : ℤ) ≤ 1 / 10 ^ 20 :=
    (zpow_le_zpow_right₀ (by norm_num) (by norm_num : (-1075 : ℤ) ≤ -100)).trans (by
      rw [zpow_neg, ← one_div]; apply one_div_le_one_div_of_le (by norm_num); norm_num)
  nlinarith [show (1 : ℝ) / 10 * (1 / 10 ^ 12) + 1 / 10 ^ 20 + 1 / 10 ^ 12 ≤ 2 / 10 ^ 12 by norm_num]

theorem b64_threshold : 9 / 10 ^ 7 ≤ b64 (1 / 10 ^ 6 : ℝ) ∧ b64 (1 / 10 ^ 6 : ℝ) ≤ 2 / 10 ^ 6 := by
  have hr := b64_isRounding (K := ℝ)
  have h := abs_le.1 (hr.err (1 / 10 ^ 6 : ℝ))
  rw [abs_of_pos (by positivity : (0 : ℝ) < 1 / 10 ^ 6)] at h
  have hu : (2 : ℝ) ^ (-53 : ℤ) ≤ 1 / 100 := by
    rw [zpow_neg, ← one_div]; apply one_div_le_one_div_of_le (by norm_num); norm_num
  have hη : (2 : ℝ) ^ (-1075 : ℤ) ≤ 1 / 10 ^ 20 :=
    (zpow_le_zpow_right₀ (by norm_num) (by norm_num : (-1075 : ℤ) ≤ -100)).trans (by
      rw [zpow_neg, ← one_div]; apply one_div_le_one_div_of_le (by norm_num); norm_num)
  constructor <;> nlinarith [show (1 : ℝ) / 100 * (1 / 10 ^ 6) + 1 / 10 ^ 20 + 9 / 10 ^ 7 ≤ 1 / 10 ^ 6 by norm_num,
    show (1 : ℝ) / 100 * (1 / 10 ^ 6) + 1 / 10 ^ 20 + 1 / 10 ^ 6 ≤ 2 / 10 ^ 6 by norm_num]

theorem meanErr_100 : meanErr ((2 : ℝ) ^ (-53 : ℤ)) (2 ^ (-1075 : ℤ)) 100 10 ≤ 1 / 10 ^ 12 := by
  have h : meanErr ((2 : ℚ) ^ (-53 : ℤ)) (2 ^ (-1075 : ℤ)) 100 10 ≤ 1 / 10 ^ 12 := by
    unfold meanErr roundErr; decide +kernel
  have := (Rat.cast_le (K := ℝ)).2 h
  unfold meanErr roundErr at this ⊢
  push_cast at this ⊢
  exact this

theorem stdErr_100 : stdErr ((2 : ℝ) ^ (-53 : ℤ)) (2 ^ (-1075 : ℤ)) 100 10 ≤ 1 / 10 ^ 12 := by
  have hr := b64_isRounding (K := ℝ)
  have h : rounded ((2 : ℚ) ^ (-53 : ℤ)) (2 ^ (-1075 : ℤ)) 10 (deviationErr ((2 : ℚ) ^ (-53 : ℤ)) (2 ^ (-1075 : ℤ)) 100 10 +
      roundErr ((2 : ℚ) ^ (-53 : ℤ)) 0 (100 + 1) 0 (10 + deviationErr ((2 : ℚ) ^ (-53 : ℤ)) (2 ^ (-1075 : ℤ)) 100 10) + 1 / 10 ^ 20) ≤ 1 / 10 ^ 12 := by
    unfold deviationErr meanErr roundErr rounded; decide +kernel
  have h' := (Rat.cast_le (K := ℝ)).2 h
  have hs : √((1 + (2 : ℝ) ^ (-53 : ℤ)) ^ (100 + 1) * ((100 + 1 : Nat) * 2 ^ (-1075 : ℤ))) ≤ 1 / 10 ^ 20 := by
    apply Real.sqrt_le_iff.2
    refine ⟨by positivity, ?_⟩
    have h : (1 + (2 : ℚ) ^ (-53 : ℤ)) ^ (100 + 1) * ((100 + 1 : Nat) * 2 ^ (-1075 : ℤ)) ≤ (1 / 10 ^ 20) ^ 2 := by decide +kernel
    have := (Rat.cast_le (K := ℝ)).2 h
    push_cast at this ⊢
    exact this
  unfold stdErr
  refine (rounded_mono hr (add_le_add_right hs _)).trans ?_
  unfold deviationErr meanErr roundErr rounded at h' ⊢
  push_cast at h' ⊢
  exact h'

open RoundedZ in
/-- **C87** in numbers: `float64`, subsequences of length 100, values of at most 10 in absolute value, no noise elimination, a query and series of any length,
any number of columns calculated, with appends in between: in the first 10001 rows, and after up to 9999 columns in all rows, for subsequences whose deviations are at least 1 or at most 1e-7, the
returned distance is wrong by at most 1/1000. -/
theorem C87_float64 (stat : Stat ℝ) (hstat : stat.Direct b64) (conv : List (Fl ℝ) → List (Fl ℝ) → Except PyErr (List (Fl ℝ))) (hconv : ConvDirect b64 conv)
    (mem : Mem ℝ) (hmem : mem.Ok) (N : Nat) (M : Option Nat) (z0 : Gen ℝ) (st0 : GSt ℝ) (h0 : Fresh b64 stat mem 100 0 z0 N M st0)
    (ops : List (GOp ℝ)) (c : Nat)
    (hok : st0.All N M (fun st op => st.Valid 100 M op ∧ st.Safe op ∧ ∀ x ∈ st.s ++ st.q, |x| ≤ 10) (ops ++ [.column c])) :
    ∃ z z' vs s q, s = (st0.run N M ops).s ∧ q = (st0.run N M ops).q ∧ RoundedZ.run b64 stat conv mem Real.sqrt z0 ops = .ok z ∧
      RoundedZ.calcColumn b64 conv mem.fl Real.sqrt z c = .ok (z', vs) ∧ vs.length = q.length + 1 - 100 ∧
      ∀ i, i + 100 ≤ q.length → min (Rounded.columns ops + 1) i ≤ 10000 → Clear 1 (1 / 10 ^ 7) (std 100 (seqOf s) c) → Clear 1 (1 / 10 ^ 7) (std 100 (seqOf q) i) →
        ∃ y, vs[i]? = some (.fin y) ∧ 0 ≤ y ∧ |y - zdist 100 0 (seqOf s) (seqOf q) i c| ≤ 1 / 1000 := by
  have hr := b64_isRounding (K := ℝ)
  have hc100 : roundErr ((2 : ℝ) ^ (-53 : ℤ)) (2 ^ (-1075 : ℤ)) 100 100 ((100 : Nat) * 10 ^ 2) ≤ 2 / 10 ^ 10 := by
    have h : roundErr ((2 : ℚ) ^ (-53 : ℤ)) (2 ^ (-1075 : ℤ)) 100 100 ((100 : Nat) * 10 ^ 2) ≤ 2 / 10 ^ 10 := by
      unfold roundErr; decide +kernel
    have := (Rat.cast_le (K := ℝ)).2 h
    unfold roundErr at this ⊢
    push_cast at this ⊢
    exact this
  have hdev : devErr ((2 : ℝ) ^ (-53 : ℤ)) (2 ^ (-1075 : ℤ)) 10 (1 / 10 ^ 12) < 1 ^ 2 := by
    have h : devErr ((2 : ℚ) ^ (-53 : ℤ)) (2 ^ (-1075 : ℤ)) 10 (1 / 10 ^ 12) < 1 ^ 2 := by
      unfold devErr rounded prodErr; decide +kernel
    have := (Rat.cast_lt (K := ℝ)).2 h
    unfold devErr rounded prodErr at this ⊢
    push_cast at this ⊢
    exact this
  obtain ⟨t1, t2⟩ := b64_threshold
  have hS : StatWithin 100 10 (1 / 10 ^ 12) (1 / 10 ^ 12) stat := StatWithin.mono
    (fun w hw hb => C87_statistics b64 _ _ hr stat hstat 100 (by norm_num) 10 w hw hb) le_rfl meanErr_100 stdErr_100
  have hC : ConvWithin 100 10 (2 / 10 ^ 10) conv := by
    intro x w hw hx hb
    obtain ⟨vs, h1, h2, h3⟩ := C87_convolve b64 _ _ hr conv hconv 100 (by norm_num) 10 x w hw hx hb
    exact ⟨vs, h1, h2, fun i v hv => (h3 i v hv).trans hc100⟩
  obtain ⟨z, z', vs, s, q, rfl, rfl, h1, h2, h3, h4⟩ := C85_column b64 _ _ hr stat conv 100 10 (1 / 10 ^ 12) (1 / 10 ^ 12) (2 / 10 ^ 10) 1 (1 / 10 ^ 7) 0 _
    (by positivity) hS hC hdev (by norm_num) (by linarith [show (2 : ℝ) / 10 ^ 6 + 1 / 10 ^ 12 < 1 by norm_num]) (by norm_num)
    (by linarith [show (1 : ℝ) / 10 ^ 7 + 1 / 10 ^ 12 ≤ 9 / 10 ^ 7 by norm_num]) mem hmem N M z0 st0 (by norm_num) h0 ops c hok (fun _ => rfl)
  refine ⟨z, z', vs, _, _, rfl, rfl, h1, h2, h3, fun i hi hops cs cq => ?_⟩
  obtain ⟨y, y1, y2, y3⟩ := h4 i hi cs cq
  refine ⟨y, y1, y2, y3.trans ?_⟩
  have hB : znormErr ((2 : ℝ) ^ (-53 : ℤ)) (2 ^ (-1075 : ℤ)) (b64 (1 / 10 ^ 12)) 100 10 (1 / 10 ^ 12) (1 / 10 ^ 12) 1 0
      (dotColumnErr (2 ^ (-53 : ℤ)) (2 ^ (-1075 : ℤ)) 100 10 (2 / 10 ^ 10) (min (Rounded.columns ops + 1) i)) ≤ (9 / 10 ^ 4) ^ 2 := by
    refine (znormErr_mono hr 100 hdev b64_eps (dotColumnErr_mono hr 100 (by norm_num) (by positivity) hops)).trans ?_
    have h : znormErr ((2 : ℚ) ^ (-53 : ℤ)) (2 ^ (-1075 : ℤ)) (2 / 10 ^ 12) 100 10 (1 / 10 ^ 12) (1 / 10 ^ 12) 1 0
        (dotColumnErr (2 ^ (-53 : ℤ)) (2 ^ (-1075 : ℤ)) 100 10 (2 / 10 ^ 10) 10000) ≤ (9 / 10 ^ 4) ^ 2 := by
      unfold znormErr corrErr noiseErr noiseMax devErr dotColumnErr rounded prodErr; decide +kernel
    have := (Rat.cast_le (K := ℝ)).2 h
    rw [znormErr_cast, dotColumnErr_cast] at this
    push_cast at this
    exact this
  have h5 : √(znormErr ((2 : ℝ) ^ (-53 : ℤ)) (2 ^ (-1075 : ℤ)) (b64 (1 / 10 ^ 12)) 100 10 (1 / 10 ^ 12) (1 / 10 ^ 12) 1 0
      (dotColumnErr (2 ^ (-53 : ℤ)) (2 ^ (-1075 : ℤ)) 100 10 (2 / 10 ^ 10) (min (Rounded.columns ops + 1) i))) ≤ 9 / 10 ^ 4 :=
    Real.sqrt_le_iff.2 ⟨by positivity, hB⟩
  have h6 := zdist_range 100 (by norm_num) (seqOf (st0.run N M ops).s) (seqOf (st0.run N M ops).q) i c
  have h7 : √((100 : Nat) : ℝ) = 10 := by
    rw [Real.sqrt_eq_iff_mul_self_eq (by positivity) (by norm_num)]; norm_num
  rw [h7] at h6
  have h8 : 0 ≤ zdist 100 0 (seqOf (st0.run N M ops).s) (seqOf (st0.run N M ops).q) i c := Real.sqrt_nonneg _
  have hu : (2 : ℝ) ^ (-53 : ℤ) ≤ 1 / 10 ^ 15 := by
    rw [zpow_neg, ← one_div]; apply one_div_le_one_div_of_le (by norm_num); norm_num
  have hη : (2 : ℝ) ^ (-1075 : ℤ) ≤ 1 / 10 ^ 20 :=
    (zpow_le_zpow_right₀ (by norm_num) (by norm_num : (-1075 : ℤ) ≤ -100)).trans (by
      rw [zpow_neg, ← one_div]; apply one_div_le_one_div_of_le (by norm_num); norm_num)
  have hu0 : (0 : ℝ) < 2 ^ (-53 : ℤ) := by positivity
  have h9 := mul_le_mul (by linarith : 1 + (2 : ℝ) ^ (-53 : ℤ) ≤ 1 + 1 / 10 ^ 15) h5 (Real.sqrt_nonneg _) (by positivity)
  have h10 := mul_le_mul hu h6 h8 (by positivity)
  linarith [show (1 + 1 / 10 ^ 15 : ℝ) * (9 / 10 ^ 4) + 1 / 10 ^ 15 * (2 * 10) + 1 / 10 ^ 20 ≤ 1 / 1000 by norm_num]

/-- 101 points, alternating between 2 and -2. -/
def zigzag : List ℝ := (List.range 101).map fun k => if k % 2 = 0 then 2 else -2

theorem zigzag_bound : ∀ x ∈ zigzag, |x| ≤ 10 := by
  intro x hx
  obtain ⟨k, -, rfl⟩ := List.mem_map.1 hx
  split <;> norm_num

theorem zigzag_std (j : Nat) (hj : j < 2) : std 100 (seqOf zigzag) j = 2 := by
  have hs : ∀ k, k < 100 → seqOf zigzag (j + k) = (((if (j + k) % 2 = 0 then 2 else -2 : ℤ)) : ℝ) := by
    intro k hk
    unfold seqOf zigzag List.getD
    rw [List.getElem?_map, List.getElem?_range (by omega)]
    simp
  have hmean : mean 100 (seqOf zigzag) j = 0 := by
    unfold mean
    rw [Finset.sum_congr rfl fun k hk => hs k (Finset.mem_range.1 hk), ← Int.cast_sum,
      show ∑ k ∈ Finset.range 100, (if (j + k) % 2 = 0 then 2 else -2 : ℤ) = 0 by interval_cases j <;> decide +kernel]
    simp
  unfold std var
  rw [hmean, Finset.sum_congr rfl fun k hk => show (seqOf zigzag (j + k) - 0) ^ 2 = 4 by
    rw [hs k (Finset.mem_range.1 hk)]; split <;> norm_num]
  rw [Real.sqrt_eq_iff_mul_self_eq (by simp) (by norm_num)]
  norm_num

open RoundedZ in
/-- C87 applies to statistics and convolutions that add from the left, a batch self-join on the 101 points of `zigzag`: all columns and a diagonal
have been calculated. Both subsequences have deviation 2. -/
example : ∃ (z0 : Gen ℝ) (st0 : GSt ℝ) (ops : List (GOp ℝ)), Fresh b64 (Stat.left b64) zeros 100 0 z0 101 none st0 ∧ (Stat.left b64).Direct b64 ∧
    ConvDirect b64 (convLeft (b64 (K := ℝ))) ∧ Rounded.columns ops = 2 ∧
    st0.All 101 none (fun st op => st.Valid 100 none op ∧ st.Safe op ∧ ∀ x ∈ st.s ++ st.q, |x| ≤ 10) (ops ++ [.column 1]) ∧
    (st0.run 101 none ops).s = zigzag ∧ ∀ j, j < 2 → Clear 1 (1 / 10 ^ 7) (std 100 (seqOf zigzag) j) := by
  have hl : zigzag.length = 101 := by simp [zigzag]
  obtain ⟨z, h1, -, -⟩ := prepare_ok (rnd := b64) (stat := Stat.left b64) zeros_ok (0 : ℝ) 100 (by norm_num) zigzag none (by rw [hl]; norm_num) (by simp)
  have hf := Fresh.batch zigzag none z (by rw [hl]; norm_num) (by simp) h1
  rw [hl] at hf
  refine ⟨z, _, [.column 0, .diag 1, .column 1], hf, Stat.left_direct b64, convLeft_direct b64, rfl, ?_, rfl, fun j hj => Or.inl ?_⟩
  · have hb := zigzag_bound
    simp only [List.cons_append, List.nil_append, GSt.All, GSt.step, GSt.Valid, GSt.Safe, hl]
    simp [hl]
    exact hb
  · rw [zigzag_std j hj]; norm_num

open RoundedZ in
/-- The assumptions of C87 on the thresholds hold for these data. -/
example : devErr ((2 : ℝ) ^ (-53 : ℤ)) (2 ^ (-1075 : ℤ)) 10 (stdErr (2 ^ (-53 : ℤ)) (2 ^ (-1075 : ℤ)) 100 10) < 1 ^ 2 ∧
    b64 (1 / 10 ^ 6) + stdErr ((2 : ℝ) ^ (-53 : ℤ)) (2 ^ (-1075 : ℤ)) 100 10 < 1 ∧
    1 / 10 ^ 7 + stdErr ((2 : ℝ) ^ (-53 : ℤ)) (2 ^ (-1075 : ℤ)) 100 10 ≤ b64 (1 / 10 ^ 6) := by
  have hr := b64_isRounding (K := ℝ)
  have h := stdErr_100
  obtain ⟨t1, t2⟩ := b64_threshold
  have h0 : 0 ≤ stdErr ((2 : ℝ) ^ (-53 : ℤ)) (2 ^ (-1075 : ℤ)) 100 10 :=
    (abs_nonneg _).trans ((Stat.left_direct b64 (List.replicate 100 (0 : ℝ)) (by simp)).2.close hr (L := 10) (by simp))
  refine ⟨?_, ?_, ?_⟩
  · have h1 : devErr ((2 : ℚ) ^ (-53 : ℤ)) (2 ^ (-1075 : ℤ)) 10 (1 / 10 ^ 12) < 1 ^ 2 := by
      unfold devErr rounded prodErr; decide +kernel
    have := (Rat.cast_lt (K := ℝ)).2 h1
    refine lt_of_le_of_lt (rounded_mono hr (e' := prodErr 10 (1 / 10 ^ 12) 10 (1 / 10 ^ 12)) ?_) ?_
    · unfold prodErr
      have := mul_le_mul h h h0 (by positivity)
      linarith
    · unfold devErr rounded prodErr at this
      unfold rounded prodErr
      push_cast at this ⊢
      exact this
  · linarith [show (2 : ℝ) / 10 ^ 6 + 1 / 10 ^ 12 < 1 by norm_num]
  · linarith [show (1 : ℝ) / 10 ^ 7 + 1 / 10 ^ 12 ≤ 9 / 10 ^ 7 by norm_num]

end Verif
