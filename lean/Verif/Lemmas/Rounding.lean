import Verif.Model.RoundedEuclidean
import Verif.Spec.Rounding
import Mathlib.Algebra.Order.BigOperators.Group.List
import Mathlib.Algebra.BigOperators.Group.List.Lemmas
import Mathlib.Algebra.Order.Group.Abs

/-! A calculus of rounding errors. -/

namespace Verif
open Spec
variable {K : Type} [Field K] [LinearOrder K] [IsStrictOrderedRing K]

/-- `v` is `S` up to `k` roundings on top of each other; `A` bounds the absolute values added up, `n` counts multiplications. -/
structure Close (u η : K) (k n : Nat) (A v S : K) : Prop where
  mag : |S| ≤ A
  err : |v - S| ≤ roundErr u η k n A

theorem roundErr_nonneg {u η A : K} (hu : 0 ≤ u) (hη : 0 ≤ η) (hA : 0 ≤ A) (k n : Nat) : 0 ≤ roundErr u η k n A := by
  unfold roundErr
  have h1 : 1 ≤ (1 + u) ^ k := one_le_pow₀ (by linarith)
  have h2 : (0 : K) ≤ n * η := mul_nonneg (Nat.cast_nonneg n) hη
  nlinarith

theorem roundErr_mono {u η A A' : K} (hu : 0 ≤ u) (hη : 0 ≤ η) {k k' n n' : Nat} (hk : k ≤ k') (hn : n ≤ n') (h0 : 0 ≤ A) (hA : A ≤ A') :
    roundErr u η k n A ≤ roundErr u η k' n' A' := by
  unfold roundErr
  have h1 : 1 ≤ (1 + u) ^ k := one_le_pow₀ (by linarith)
  have h2 : (1 + u) ^ k ≤ (1 + u) ^ k' := pow_le_pow_right₀ (by linarith) hk
  have h3 : (n : K) * η ≤ n' * η := mul_le_mul_of_nonneg_right (by exact_mod_cast hn) hη
  have h4 : (0 : K) ≤ n * η := mul_nonneg (Nat.cast_nonneg n) hη
  have h5 : (1 + u) ^ k * (A + n * η) ≤ (1 + u) ^ k' * (A + n * η) := mul_le_mul_of_nonneg_right h2 (by linarith)
  have h6 : (1 + u) ^ k' * (A + n * η) ≤ (1 + u) ^ k' * (A + n' * η) := mul_le_mul_of_nonneg_left (by linarith) (by positivity)
  have h7 : (1 + u) ^ k' * (A + n' * η) - A ≤ (1 + u) ^ k' * (A' + n' * η) - A' := by nlinarith
  linarith

namespace Close
variable {u η : K} {k n : Nat} {A v S : K}

theorem mono (h : Close u η k n A v S) (hu : 0 ≤ u) (hη : 0 ≤ η) {k' n' : Nat} {A' : K} (hk : k ≤ k') (hn : n ≤ n') (hA : A ≤ A') :
    Close u η k' n' A' v S :=
  ⟨h.mag.trans hA, h.err.trans (roundErr_mono hu hη hk hn ((abs_nonneg _).trans h.mag) hA)⟩

theorem exact (x : K) : Close u η 0 0 |x| x x := ⟨le_rfl, by unfold roundErr; simp⟩

theorem add (h : Close u η k n A v S) {n' : Nat} {A' v' S' : K} (h' : Close u η k n' A' v' S') :
    Close u η k (n + n') (A + A') (v + v') (S + S') := by
  refine ⟨(abs_add_le _ _).trans (add_le_add h.mag h'.mag), ?_⟩
  have : v + v' - (S + S') = (v - S) + (v' - S') := by ring
  rw [this]
  refine (abs_add_le _ _).trans ((add_le_add h.err h'.err).trans (le_of_eq ?_))
  unfold roundErr; push_cast; ring

theorem neg (h : Close u η k n A v S) : Close u η k n A (-v) (-S) := by
  refine ⟨by rw [abs_neg]; exact h.mag, ?_⟩
  rw [show -v - -S = -(v - S) by ring, abs_neg]; exact h.err

theorem sub (h : Close u η k n A v S) {n' : Nat} {A' v' S' : K} (h' : Close u η k n' A' v' S') :
    Close u η k (n + n') (A + A') (v - v') (S - S') := by
  have := h.add h'.neg
  rwa [← sub_eq_add_neg, ← sub_eq_add_neg] at this

/-- The calculated value itself is bounded. -/
theorem abs_le (h : Close u η k n A v S) : |v| ≤ (1 + u) ^ k * (A + n * η) := by
  have h1 := h.err
  have h2 := h.mag
  have h3 : |v| ≤ |v - S| + |S| := by
    have := abs_add_le (v - S) S
    rwa [sub_add_cancel] at this
  unfold roundErr at h1
  linarith

theorem two (h : Close u η k n A v S) : Close u η k (2 * n) (2 * A) (2 * v) (2 * S) := by
  rw [two_mul, two_mul A, two_mul v, two_mul S]; exact h.add h

variable {rnd : K → K}

/-- Rounding the result of any operation. -/
theorem round (h : Close u η k n A v S) (hr : IsRounding rnd u η) : Close u η (k + 1) (n + 1) A (rnd v) S := by
  refine ⟨h.mag, ?_⟩
  have h1 := h.err
  have h2 := h.abs_le
  have h3 := hr.err v
  have hu := hr.u_nonneg
  have h4 : |rnd v - S| ≤ |rnd v - v| + |v - S| := by
    have := abs_add_le (rnd v - v) (v - S)
    rwa [sub_add_sub_cancel] at this
  have h5 : u * |v| ≤ u * ((1 + u) ^ k * (A + n * η)) := mul_le_mul_of_nonneg_left h2 hu
  have h6 : η ≤ (1 + u) ^ (k + 1) * η := by
    have : 1 ≤ (1 + u) ^ (k + 1) := one_le_pow₀ (by linarith)
    have := hr.η_nonneg
    nlinarith
  unfold roundErr at h1 ⊢
  have h7 : (1 + u) ^ (k + 1) * (A + (n + 1 : Nat) * η) - A =
      u * ((1 + u) ^ k * (A + n * η)) + ((1 + u) ^ k * (A + n * η) - A) + (1 + u) ^ (k + 1) * η := by
    push_cast; ring
  rw [h7]
  linarith

/-- Rounding a sum of two floats. -/
theorem roundAdd (hr : IsRounding rnd u η) {a b : K} (h : Close u η k n A (a + b) S) (ha : rnd a = a) (hb : rnd b = b) :
    Close u η (k + 1) n A (rnd (a + b)) S := by
  refine ⟨h.mag, ?_⟩
  have h1 := h.err
  have h2 := h.abs_le
  have h3 := hr.add a b ha hb
  have hu := hr.u_nonneg
  have h4 : |rnd (a + b) - S| ≤ |rnd (a + b) - (a + b)| + |a + b - S| := by
    have := abs_add_le (rnd (a + b) - (a + b)) (a + b - S)
    rwa [sub_add_sub_cancel] at this
  have h5 : u * |a + b| ≤ u * ((1 + u) ^ k * (A + n * η)) := mul_le_mul_of_nonneg_left h2 hu
  unfold roundErr at h1 ⊢
  have h7 : (1 + u) ^ (k + 1) * (A + n * η) - A = u * ((1 + u) ^ k * (A + n * η)) + ((1 + u) ^ k * (A + n * η) - A) := by ring
  rw [h7]
  linarith

theorem roundSub (hr : IsRounding rnd u η) {a b : K} (h : Close u η k n A (a - b) S) (ha : rnd a = a) (hb : rnd b = b) :
    Close u η (k + 1) n A (rnd (a - b)) S := by
  rw [sub_eq_add_neg] at h ⊢
  exact roundAdd hr h ha (by rw [hr.neg, hb])

/-- The rounded square of a rounded difference. -/
theorem squareDiff (hr : IsRounding rnd u η) (x y : K) (hx : rnd x = x) (hy : rnd y = y) :
    Close u η 3 1 ((x - y) ^ 2) (rnd (rnd (x - y) * rnd (x - y))) ((x - y) ^ 2) := by
  have hu := hr.u_nonneg
  have h0 : Close u η 2 0 ((x - y) ^ 2) (rnd (x - y) * rnd (x - y)) ((x - y) ^ 2) := by
    refine ⟨by rw [abs_of_nonneg (sq_nonneg _)], ?_⟩
    have h1 := hr.sub x y hx hy
    set t := rnd (x - y)
    set d := x - y
    have h2 : |t * t - d ^ 2| = |t - d| * |(t - d) + 2 * d| := by rw [← abs_mul]; congr 1; ring
    have h3 : |(t - d) + 2 * d| ≤ u * |d| + 2 * |d| := by
      refine (abs_add_le _ _).trans (add_le_add h1 ?_)
      rw [abs_mul, abs_of_pos (by norm_num : (0 : K) < 2)]
    rw [h2]
    refine (mul_le_mul h1 h3 (abs_nonneg _) (by positivity)).trans (le_of_eq ?_)
    unfold roundErr
    rw [← sq_abs d]; push_cast; ring
  have := h0.round hr
  simpa using this

end Close

/-! ### Sums of products -/

/-- Sum of the absolute values of the products. -/
def absDot (l : List (K × K)) : K := (l.map fun p => |p.1 * p.2|).sum

theorem absDot_le (l : List (K × K)) (L : K) (h : ∀ p ∈ l, |p.1| ≤ L ∧ |p.2| ≤ L) : absDot l ≤ l.length * L ^ 2 := by
  unfold absDot
  induction l with
  | nil => simp
  | cons p l ih =>
    obtain ⟨h1, h2⟩ := h p (by simp)
    have h3 := ih fun q hq => h q (by simp [hq])
    have h4 : |p.1 * p.2| ≤ L ^ 2 := by
      rw [abs_mul, sq]
      exact mul_le_mul h1 h2 (abs_nonneg _) ((abs_nonneg _).trans h1)
    simp only [List.map_cons, List.sum_cons, List.length_cons]
    push_cast
    linarith

namespace Rounded

theorem DotEval.repr {rnd : K → K} {u η : K} (hr : IsRounding rnd u η) {l : List (K × K)} {v : K} (h : DotEval rnd l v) : rnd v = v := by
  cases h <;> exact hr.idem _

/-- A dot product calculated in any order is close to the exact one. -/
theorem DotEval.close {rnd : K → K} {u η : K} (hr : IsRounding rnd u η) {l : List (K × K)} {v : K} (h : DotEval rnd l v) :
    1 ≤ l.length ∧ Close u η l.length l.length (absDot l) v (l.map fun p => p.1 * p.2).sum := by
  have hu := hr.u_nonneg
  have hη := hr.η_nonneg
  induction h with
  | mul x y =>
    refine ⟨by simp, ?_⟩
    have := (Close.exact (u := u) (η := η) (x * y)).round hr
    simpa [absDot] using this
  | @add l l' l'' a b h h' hp ih ih' =>
    obtain ⟨i1, i2⟩ := ih
    obtain ⟨j1, j2⟩ := ih'
    have hlen : l''.length = l.length + l'.length := by rw [hp.length_eq, List.length_append]
    have hs : (l''.map fun p => p.1 * p.2).sum = (l.map fun p => p.1 * p.2).sum + (l'.map fun p => p.1 * p.2).sum := by
      rw [(hp.map _).sum_eq, List.map_append, List.sum_append]
    have ha : absDot l'' = absDot l + absDot l' := by
      unfold absDot; rw [(hp.map _).sum_eq, List.map_append, List.sum_append]
    refine ⟨by omega, ?_⟩
    rw [hs, ha, hlen]
    have h1 := (i2.mono hu hη (k' := l.length + l'.length - 1) (by omega) le_rfl le_rfl).add
      (j2.mono hu hη (k' := l.length + l'.length - 1) (by omega) le_rfl le_rfl)
    have := Close.roundAdd hr h1 (h.repr hr) (h'.repr hr)
    rwa [show l.length + l'.length - 1 + 1 = l.length + l'.length by omega] at this
  | @fma l l'' a x y h hp ih =>
    obtain ⟨i1, i2⟩ := ih
    have hlen : l''.length = l.length + 1 := by rw [hp.length_eq, List.length_cons]
    have hs : (l''.map fun p => p.1 * p.2).sum = (l.map fun p => p.1 * p.2).sum + x * y := by
      rw [(hp.map _).sum_eq, List.map_cons, List.sum_cons, add_comm]
    have ha : absDot l'' = absDot l + |x * y| := by
      unfold absDot; rw [(hp.map _).sum_eq, List.map_cons, List.sum_cons, add_comm]
    refine ⟨by omega, ?_⟩
    rw [hs, ha, hlen]
    have h1 := i2.add ((Close.exact (u := u) (η := η) (x * y)).mono hu hη (Nat.zero_le l.length) le_rfl le_rfl)
    exact h1.round hr

end Rounded
end Verif
