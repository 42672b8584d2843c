import Verif.PyArith
import Mathlib.Data.Int.Log
import Mathlib.Data.Rat.Floor
import Mathlib.Algebra.Order.Ring.Rat
import Mathlib.Algebra.Order.Floor.Ring
import Mathlib.Algebra.Ring.Int.Parity
import Mathlib.Order.Monotone.Basic
import Mathlib.Tactic.Linarith
import Mathlib.Tactic.Ring
import Mathlib.Tactic.FieldSimp
import Mathlib.Tactic.Positivity

/-!
# Rounding of floating point numbers

This file models no file of the repository: it is the arithmetic of NumPy's `float64`, without overflow (the exponent is not
bounded above). `IsRounding` is what the error bounds assume of a rounding function; `b64`, rounding to nearest (ties to even)
with 53 significant bits and gradual underflow, satisfies it (`b64_isRounding`).
-/

namespace Verif

section
variable {K : Type} [Field K] [LinearOrder K]

/-- What is assumed of the rounding of a floating point operation: it keeps the order, negation and zero, floats are kept,
the relative error is at most `u` (plus `η` near zero; sums of two floats have no additional error near zero). -/
structure IsRounding (rnd : K → K) (u η : K) : Prop where
  u_nonneg : 0 ≤ u
  η_nonneg : 0 ≤ η
  mono : Monotone rnd
  neg : ∀ x, rnd (-x) = -rnd x
  idem : ∀ x, rnd (rnd x) = rnd x
  err : ∀ x, |rnd x - x| ≤ u * |x| + η
  add : ∀ x y, rnd x = x → rnd y = y → |rnd (x + y) - (x + y)| ≤ u * |x + y|

end

section
variable {K : Type} [Field K] [LinearOrder K] [FloorRing K]

/-- The integer nearest to `y`, the even one of two. -/
def roundEven (y : K) : ℤ :=
  if Int.fract y < 1 / 2 then ⌊y⌋
  else if 1 / 2 < Int.fract y then ⌊y⌋ + 1
  else if Even ⌊y⌋ then ⌊y⌋ else ⌊y⌋ + 1

/-- The exponent of the last of `p` bits of `x` is `expo … - p + 1`. -/
def expo (emin : ℤ) (x : K) : ℤ := max (Int.log 2 |x|) emin

/-- Rounding to nearest (ties to even) with `p` significant bits, exponents from `emin`. -/
def roundTo (p : ℕ) (emin : ℤ) (x : K) : K :=
  roundEven (x * 2 ^ ((p : ℤ) - 1 - expo emin x)) / 2 ^ ((p : ℤ) - 1 - expo emin x)

/-- IEEE 754 binary64 (`float64`), without overflow. -/
def b64 (x : K) : K := roundTo 53 (-1022) x

end

section
variable {K : Type} [Field K] [LinearOrder K] [IsStrictOrderedRing K] [FloorRing K]

theorem roundEven_int (n : ℤ) : roundEven (n : K) = n := by
  unfold roundEven
  rw [Int.fract_intCast, if_pos (by norm_num), Int.floor_intCast]

theorem roundEven_err (y : K) : |(roundEven y : K) - y| ≤ 1 / 2 := by
  have h0 := Int.fract_nonneg y
  have h1 := (Int.fract_lt_one y).le
  have h2 : y = ⌊y⌋ + Int.fract y := (Int.floor_add_fract y).symm
  unfold roundEven
  split_ifs with a b c <;> rw [abs_le] <;> push_cast <;> constructor <;> linarith

theorem roundEven_mono : Monotone (roundEven (K := K)) := by
  intro x y h
  have hf : ⌊x⌋ ≤ ⌊y⌋ := Int.floor_mono h
  rcases hf.lt_or_eq with hlt | heq
  · have h1 : roundEven x ≤ ⌊x⌋ + 1 := by unfold roundEven; split_ifs <;> omega
    have h2 : ⌊y⌋ ≤ roundEven y := by unfold roundEven; split_ifs <;> omega
    omega
  · have hfr : Int.fract x ≤ Int.fract y := by
      unfold Int.fract; rw [heq]; linarith
    unfold roundEven
    rw [heq]
    split_ifs <;> first | omega | (exfalso; linarith)

theorem roundEven_neg (y : K) : roundEven (-y) = -roundEven y := by
  rcases eq_or_ne (Int.fract y) 0 with h | h
  · have hy : y = ⌊y⌋ := by have := Int.floor_add_fract y; rw [h, add_zero] at this; exact this.symm
    rw [hy, ← Int.cast_neg, roundEven_int, roundEven_int]
  · have h1 : Int.fract (-y) = 1 - Int.fract y := Int.fract_neg h
    have h2 : ⌊-y⌋ = -⌊y⌋ - 1 := by
      rw [Int.floor_neg]
      have : ⌈y⌉ = ⌊y⌋ + 1 := by
        rw [Int.ceil_eq_iff]
        push_cast
        have h3 : 0 < Int.fract y := lt_of_le_of_ne (Int.fract_nonneg y) (Ne.symm h)
        have h4 := (Int.fract_lt_one y).le
        have h5 : y = ⌊y⌋ + Int.fract y := (Int.floor_add_fract y).symm
        constructor <;> linarith
      rw [this]; ring
    unfold roundEven
    rw [h1, h2]
    have hpar : Even (-⌊y⌋ - 1) ↔ ¬ Even ⌊y⌋ := by
      rw [Int.even_sub_one, even_neg]
    simp only [hpar]
    split_ifs <;> first | omega | (exfalso; linarith)

theorem two_zpow_pos (e : ℤ) : (0 : K) < 2 ^ e := zpow_pos (by norm_num) e

omit [IsStrictOrderedRing K] in
theorem expo_neg (emin : ℤ) (x : K) : expo emin (-x) = expo emin x := by unfold expo; rw [abs_neg]

theorem lt_expo (emin : ℤ) (x : K) : |x| < 2 ^ (expo emin x + 1) := by
  refine lt_of_lt_of_le (Int.lt_zpow_succ_log_self (by norm_num : 1 < 2) |x|) ?_
  exact zpow_le_zpow_right₀ (by norm_num) (by have := le_max_left (Int.log 2 |x|) emin; unfold expo; omega)

theorem expo_le (emin e : ℤ) (x : K) (he : emin ≤ e) (hx : x ≠ 0) (h : |x| < 2 ^ (e + 1)) : expo emin x ≤ e := by
  refine max_le ?_ he
  have := (Int.lt_zpow_iff_log_lt (b := 2) (by norm_num) (abs_pos.2 hx)).1 h
  omega

theorem expo_big (emin : ℤ) (x : K) (hx : x ≠ 0) (h : emin < expo emin x) : (2 : K) ^ (expo emin x) ≤ |x| := by
  have : expo emin x = Int.log 2 |x| := by unfold expo at h ⊢; omega
  rw [this]
  exact Int.zpow_log_le_self (by norm_num) (abs_pos.2 hx)

theorem roundTo_zero (p : ℕ) (emin : ℤ) : roundTo p emin (0 : K) = 0 := by
  have := roundEven_int (K := K) 0
  unfold roundTo
  rw [zero_mul, ← Int.cast_zero, this]; simp

theorem roundTo_neg (p : ℕ) (emin : ℤ) (x : K) : roundTo p emin (-x) = -roundTo p emin x := by
  unfold roundTo
  rw [expo_neg, neg_mul, roundEven_neg, Int.cast_neg, neg_div]

theorem roundTo_grid (p : ℕ) (emin : ℤ) (x : K) (k : ℤ) (h : x * 2 ^ ((p : ℤ) - 1 - expo emin x) = k) : roundTo p emin x = x := by
  unfold roundTo
  rw [h, roundEven_int, ← h]
  have := two_zpow_pos (K := K) ((p : ℤ) - 1 - expo emin x)
  field_simp

theorem roundTo_err (p : ℕ) (emin : ℤ) (x : K) : |roundTo p emin x - x| ≤ 2 ^ (expo emin x - p) := by
  unfold roundTo
  set s : K := 2 ^ ((p : ℤ) - 1 - expo emin x) with hs
  have hpos : 0 < s := two_zpow_pos _
  have h1 := roundEven_err (x * s)
  have h2 : (roundEven (x * s) : K) / s - x = ((roundEven (x * s) : K) - x * s) / s := by field_simp
  have h3 : (2 : K) ^ (expo emin x - p) = 1 / 2 / s := by
    rw [hs, div_div, eq_div_iff (by positivity)]
    rw [show ((2 : K) * 2 ^ ((p : ℤ) - 1 - expo emin x)) = 2 ^ ((p : ℤ) - expo emin x) by
      rw [← zpow_one_add₀ (by norm_num)]; congr 1; ring, ← zpow_add₀ (by norm_num)]
    simp
  rw [h2, abs_div, abs_of_pos hpos, h3]
  exact div_le_div_of_nonneg_right h1 hpos.le

theorem roundTo_nonneg (p : ℕ) (emin : ℤ) (x : K) (h : 0 ≤ x) : 0 ≤ roundTo p emin x := by
  unfold roundTo
  have hs := two_zpow_pos (K := K) ((p : ℤ) - 1 - expo emin x)
  refine div_nonneg ?_ hs.le
  have := roundEven_mono (mul_nonneg h hs.le)
  have h0 := roundEven_int (K := K) 0
  rw [Int.cast_zero] at h0
  rw [h0] at this
  exact_mod_cast this

omit [LinearOrder K] [IsStrictOrderedRing K] [FloorRing K] in
theorem zpow_nat_int (n : ℕ) : (2 : K) ^ (n : ℤ) = ((2 ^ n : ℤ) : K) := by push_cast; exact zpow_natCast _ _

/-- Beneath `2^(e+1)` rounding stays beneath it. -/
theorem roundTo_le (p : ℕ) (emin : ℤ) (x : K) : roundTo p emin x ≤ 2 ^ (expo emin x + 1) := by
  unfold roundTo
  set s : K := 2 ^ ((p : ℤ) - 1 - expo emin x) with hs
  have hpos : 0 < s := two_zpow_pos _
  have h1 : x * s ≤ ((2 ^ p : ℤ) : K) := by
    rw [← zpow_nat_int]
    have : (2 : K) ^ (p : ℤ) = 2 ^ (expo emin x + 1) * s := by
      rw [hs, ← zpow_add₀ (by norm_num)]; congr 1; ring
    rw [this]
    exact mul_le_mul_of_nonneg_right ((le_abs_self x).trans (lt_expo emin x).le) hpos.le
  have h2 := roundEven_mono h1
  rw [roundEven_int] at h2
  rw [div_le_iff₀ hpos, hs, ← zpow_add₀ (by norm_num), show expo emin x + 1 + ((p : ℤ) - 1 - expo emin x) = (p : ℤ) by ring, zpow_nat_int]
  exact_mod_cast h2

theorem le_roundTo (p : ℕ) (emin : ℤ) (hp : 1 ≤ p) (x : K) (h : (2 : K) ^ (expo emin x) ≤ x) : 2 ^ (expo emin x) ≤ roundTo p emin x := by
  unfold roundTo
  set s : K := 2 ^ ((p : ℤ) - 1 - expo emin x) with hs
  have hpos : 0 < s := two_zpow_pos _
  have h0 : (2 : K) ^ (expo emin x) * s = ((2 ^ (p - 1) : ℤ) : K) := by
    rw [← zpow_nat_int, hs, ← zpow_add₀ (by norm_num)]; congr 1; omega
  have h1 : ((2 ^ (p - 1) : ℤ) : K) ≤ x * s := by
    rw [← h0]; exact mul_le_mul_of_nonneg_right h hpos.le
  have h2 := roundEven_mono h1
  rw [roundEven_int] at h2
  rw [le_div_iff₀ hpos, h0]
  exact_mod_cast h2

theorem roundTo_mono (p : ℕ) (hp : 1 ≤ p) (emin : ℤ) : Monotone (roundTo p emin (K := K)) := by
  have key : ∀ x y : K, 0 < x → x ≤ y → roundTo p emin x ≤ roundTo p emin y := by
    intro x y hx h
    have hy : 0 < y := lt_of_lt_of_le hx h
    have hle : expo emin x ≤ expo emin y := by
      refine max_le_max ?_ le_rfl
      rw [abs_of_pos hx, abs_of_pos hy]
      exact Int.log_mono_right hx h
    rcases hle.lt_or_eq with hlt | heq
    · have h1 : (2 : K) ^ (expo emin y) ≤ y := by
        have := expo_big emin y hy.ne' (lt_of_le_of_lt (le_max_right _ _) hlt)
        rwa [abs_of_pos hy] at this
      refine (roundTo_le p emin x).trans (le_trans ?_ (le_roundTo p emin hp y h1))
      exact zpow_le_zpow_right₀ (by norm_num) (by omega)
    · unfold roundTo
      rw [heq]
      have hs := two_zpow_pos (K := K) ((p : ℤ) - 1 - expo emin y)
      refine div_le_div_of_nonneg_right ?_ hs.le
      exact_mod_cast roundEven_mono (mul_le_mul_of_nonneg_right h hs.le)
  intro x y h
  rcases lt_trichotomy x 0 with hx | hx | hx
  · rcases lt_or_ge y 0 with hy | hy
    · have := key (-y) (-x) (by linarith) (by linarith)
      rw [roundTo_neg, roundTo_neg] at this
      linarith
    · have h1 := roundTo_nonneg p emin y hy
      have h2 := roundTo_nonneg p emin (-x) (by linarith)
      rw [roundTo_neg] at h2
      linarith
  · rw [hx] at h ⊢
    rw [roundTo_zero]
    exact roundTo_nonneg p emin y h
  · exact key x y hx h

/-- `p`-bit numbers are kept. -/
theorem roundTo_of_bits (p : ℕ) (hp : 1 ≤ p) (emin e : ℤ) (he : emin ≤ e) (k : ℤ) (hk : |k| ≤ 2 ^ p) (x : K)
    (hx : x = k * 2 ^ (e - p + 1)) : roundTo p emin x = x := by
  rcases eq_or_ne x 0 with h0 | h0
  · rw [h0, roundTo_zero]
  have habs : |x| = ((|k| : ℤ) : K) * 2 ^ (e - p + 1) := by
    rw [hx, abs_mul, abs_of_pos (two_zpow_pos (K := K) (e - p + 1)), Int.cast_abs]
  have hpw : (2 : K) ^ (e + 1) = ((2 ^ p : ℤ) : K) * 2 ^ (e - p + 1) := by
    rw [← zpow_nat_int, ← zpow_add₀ (by norm_num)]; congr 1; ring
  have hle : expo emin x ≤ e ∨ (|k| = 2 ^ p ∧ expo emin x = e + 1) := by
    rcases hk.lt_or_eq with hlt | heq
    · left
      refine expo_le emin e x he h0 ?_
      rw [habs, hpw]
      exact mul_lt_mul_of_pos_right (by exact_mod_cast hlt) (two_zpow_pos _)
    · right
      refine ⟨heq, ?_⟩
      have h1 : |x| = 2 ^ (e + 1) := by rw [habs, heq, hpw]
      unfold expo
      rw [h1, show (2 : K) ^ (e + 1) = (((2 : ℕ) : K)) ^ (e + 1) by norm_num, Int.log_zpow (by norm_num)]
      omega
  rcases hle with hle | ⟨hk2, hle⟩
  · obtain ⟨n, hn⟩ : ∃ n : ℕ, e - expo emin x = n := ⟨(e - expo emin x).toNat, by omega⟩
    refine roundTo_grid p emin x (k * 2 ^ n) ?_
    push_cast
    generalize expo emin x = E at hn ⊢
    rw [hx, mul_assoc, ← zpow_natCast, ← hn, ← zpow_add₀ (by norm_num)]
    congr 2; ring
  · obtain ⟨k', hk'⟩ : ∃ k' : ℤ, k = 2 * k' := by
      have hd : (2 : ℤ) ∣ |k| := by rw [hk2]; exact dvd_pow_self 2 (by omega)
      exact (dvd_abs 2 k).1 hd
    refine roundTo_grid p emin x k' ?_
    rw [hle]
    conv_lhs => rw [hx, hk']
    push_cast
    rw [mul_comm (2 : K) (k' : K), mul_assoc, mul_assoc, ← zpow_add₀ (by norm_num), ← zpow_one_add₀ (by norm_num),
      show 1 + (e - (p : ℤ) + 1 + ((p : ℤ) - 1 - (e + 1))) = 0 by ring, zpow_zero, mul_one]

theorem roundTo_bits (p : ℕ) (emin : ℤ) (x : K) : ∃ k : ℤ, |k| ≤ 2 ^ p ∧ roundTo p emin x = k * 2 ^ (expo emin x - p + 1) := by
  refine ⟨roundEven (x * 2 ^ ((p : ℤ) - 1 - expo emin x)), ?_, ?_⟩
  · have hpos := two_zpow_pos (K := K) ((p : ℤ) - 1 - expo emin x)
    have h1 := roundTo_le p emin x
    have h2 := roundTo_le p emin (-x)
    rw [roundTo_neg, expo_neg] at h2
    unfold roundTo at h1 h2
    have hp : (2 : K) ^ (expo emin x + 1) = ((2 ^ p : ℤ) : K) / 2 ^ ((p : ℤ) - 1 - expo emin x) := by
      rw [eq_div_iff hpos.ne', ← zpow_nat_int, ← zpow_add₀ (by norm_num)]; congr 1; ring
    rw [hp] at h1 h2
    rw [← neg_div] at h2
    rw [div_le_div_iff_of_pos_right hpos] at h1 h2
    rw [abs_le]
    constructor
    · have : -((2 ^ p : ℤ) : K) ≤ _ := neg_le_of_neg_le h2
      exact_mod_cast this
    · exact_mod_cast h1
  · unfold roundTo
    rw [div_eq_mul_inv, ← zpow_neg]
    congr 2; ring

theorem roundTo_idem (p : ℕ) (hp : 1 ≤ p) (emin : ℤ) (x : K) : roundTo p emin (roundTo p emin x) = roundTo p emin x := by
  obtain ⟨k, hk, h⟩ := roundTo_bits p emin x
  exact roundTo_of_bits p hp emin _ (le_max_right _ _) k hk _ h

theorem roundTo_multiple (p : ℕ) (emin : ℤ) (x : K) (h : roundTo p emin x = x) : ∃ k : ℤ, x = k * 2 ^ (emin - p + 1) := by
  obtain ⟨k, -, hk⟩ := roundTo_bits p emin x
  obtain ⟨n, hn⟩ : ∃ n : ℕ, expo emin x - emin = n := ⟨(expo emin x - emin).toNat, by have := le_max_right (Int.log 2 |x|) emin; unfold expo; omega⟩
  refine ⟨k * 2 ^ n, ?_⟩
  conv_lhs => rw [← h, hk]
  push_cast
  rw [mul_assoc, ← zpow_natCast, ← hn, ← zpow_add₀ (by norm_num)]
  congr 2; ring

theorem roundTo_isRounding (p : ℕ) (hp : 1 ≤ p) (emin : ℤ) : IsRounding (roundTo p emin (K := K)) (2 ^ (-(p : ℤ))) (2 ^ (emin - p)) where
  u_nonneg := (two_zpow_pos _).le
  η_nonneg := (two_zpow_pos _).le
  mono := roundTo_mono p hp emin
  neg := roundTo_neg p emin
  idem := roundTo_idem p hp emin
  err x := by
    rcases eq_or_ne x 0 with h0 | h0
    · rw [h0, roundTo_zero]; simp only [sub_zero, abs_zero, mul_zero, zero_add]; exact (two_zpow_pos _).le
    refine (roundTo_err p emin x).trans ?_
    rcases (le_max_right (Int.log 2 |x|) emin).lt_or_eq with hlt | heq
    · have h1 := expo_big emin x h0 hlt
      have h2 : (2 : K) ^ (expo emin x - p) = 2 ^ (-(p : ℤ)) * 2 ^ expo emin x := by
        rw [← zpow_add₀ (by norm_num)]; congr 1; ring
      rw [h2]
      have := mul_le_mul_of_nonneg_left h1 (two_zpow_pos (K := K) (-(p : ℤ))).le
      have := (two_zpow_pos (K := K) (emin - p)).le
      linarith
    · have h1 : expo emin x = emin := heq.symm
      rw [h1]
      have := mul_nonneg (two_zpow_pos (K := K) (-(p : ℤ))).le (abs_nonneg x)
      linarith
  add x y hx hy := by
    obtain ⟨k, hk⟩ := roundTo_multiple p emin x hx
    obtain ⟨l, hl⟩ := roundTo_multiple p emin y hy
    have hsum : x + y = ((k + l : ℤ) : K) * 2 ^ (emin - p + 1) := by
      conv_lhs => rw [hk, hl]
      push_cast; ring
    rcases eq_or_ne (x + y) 0 with h0 | h0
    · rw [h0, roundTo_zero]; simp
    rcases (le_max_right (Int.log 2 |x + y|) emin).lt_or_eq with hlt | heq
    · have h1 := expo_big emin (x + y) h0 hlt
      have h2 : (2 : K) ^ (expo emin (x + y) - p) = 2 ^ (-(p : ℤ)) * 2 ^ expo emin (x + y) := by
        rw [← zpow_add₀ (by norm_num)]; congr 1; ring
      refine (roundTo_err p emin (x + y)).trans ?_
      rw [h2]
      exact mul_le_mul_of_nonneg_left h1 (two_zpow_pos (K := K) (-(p : ℤ))).le
    · have h1 : expo emin (x + y) = emin := heq.symm
      have h2 : roundTo p emin (x + y) = x + y := by
        refine roundTo_grid p emin _ (k + l) ?_
        rw [h1]
        conv_lhs => rw [hsum]
        rw [mul_assoc, ← zpow_add₀ (by norm_num), show emin - (p : ℤ) + 1 + ((p : ℤ) - 1 - emin) = 0 by ring, zpow_zero, mul_one]
      rw [h2, sub_self, abs_zero]
      exact mul_nonneg (two_zpow_pos _).le (abs_nonneg _)

/-- `float64` without overflow is a rounding with relative error 2⁻⁵³. -/
theorem b64_isRounding : IsRounding (b64 (K := K)) (2 ^ (-53 : ℤ)) (2 ^ (-1075 : ℤ)) := by
  have := roundTo_isRounding (K := K) 53 (by norm_num) (-1022)
  norm_num at this ⊢
  exact this

end

section
variable {K : Type} [Field K] [LinearOrder K] [IsStrictOrderedRing K] {rnd : K → K} {u η : K}

theorem IsRounding.zero (h : IsRounding rnd u η) : rnd 0 = 0 := by
  have := h.neg 0
  rw [neg_zero] at this
  linarith

theorem IsRounding.nonneg (h : IsRounding rnd u η) {x : K} (hx : 0 ≤ x) : 0 ≤ rnd x := by
  have := h.mono hx
  rwa [h.zero] at this

omit [IsStrictOrderedRing K] in
theorem IsRounding.sub (h : IsRounding rnd u η) (x y : K) (hx : rnd x = x) (hy : rnd y = y) :
    |rnd (x - y) - (x - y)| ≤ u * |x - y| := by
  have := h.add x (-y) hx (by rw [h.neg, hy])
  rwa [← sub_eq_add_neg] at this

/-- Exact arithmetic is the rounding without error. -/
theorem isRounding_id : IsRounding (fun x : K => x) 0 0 :=
  ⟨le_rfl, le_rfl, fun _ _ h => h, fun _ => rfl, fun _ => rfl, fun _ => by simp, fun _ _ _ _ => by simp⟩

end

/-- 1 + 2⁻⁵³ is halfway between two floats and goes to the even one; 0.1 is not a float. -/
example : b64 (1 + 1 / 2 ^ 53 : ℚ) = 1 ∧ b64 (1 + 3 / 2 ^ 53 : ℚ) = 1 + 1 / 2 ^ 51 ∧ b64 (1 / 10 : ℚ) = 3602879701896397 / 36028797018963968 ∧
    b64 (1 / 2 ^ 1075 : ℚ) = 0 ∧ b64 (3 / 2 ^ 1075 : ℚ) = 1 / 2 ^ 1073 := by decide +kernel

end Verif
