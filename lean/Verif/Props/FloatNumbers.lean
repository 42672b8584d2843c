import Verif.Props.FloatMatrix
import Verif.Props.FloatCounts
import Verif.Props.RoundedStats
import Verif.Props.RoundedExact

/-!
# C88: whole batch calculations in `float64`
-/

namespace Verif
open Spec
variable {α : Type}

/-- The bounds for `float64`, subsequences of length 100, values of at most 10. -/
noncomputable def float64Bounds : FloatBounds := ⟨2 ^ (-53 : ℤ), 2 ^ (-1075 : ℤ), 10, 1 / 10 ^ 12, 1 / 10 ^ 12, 2 / 10 ^ 10, 1, 1 / 10 ^ 7⟩

theorem devErr_100 : devErr ((2 : ℝ) ^ (-53 : ℤ)) (2 ^ (-1075 : ℤ)) 10 (1 / 10 ^ 12) < 1 ^ 2 := by
  have h : devErr ((2 : ℚ) ^ (-53 : ℤ)) (2 ^ (-1075 : ℤ)) 10 (1 / 10 ^ 12) < 1 ^ 2 := by
    unfold devErr rounded prodErr; decide +kernel
  have := (Rat.cast_lt (K := ℝ)).2 h
  unfold devErr rounded prodErr at this ⊢
  push_cast at this ⊢
  exact this

theorem float64_good {F : FloatEnv} (hF : F.rnd = b64) (hd : F.dots.Ok b64) (hs : F.stat.Direct b64) (hc : RoundedZ.ConvDirect b64 F.conv) :
    F.Good float64Bounds 100 := by
  have hr := b64_isRounding (K := ℝ)
  obtain ⟨t1, t2⟩ := b64_threshold
  have hc100 : roundErr ((2 : ℝ) ^ (-53 : ℤ)) (2 ^ (-1075 : ℤ)) 100 100 ((100 : Nat) * 10 ^ 2) ≤ 2 / 10 ^ 10 := by
    have h : roundErr ((2 : ℚ) ^ (-53 : ℤ)) (2 ^ (-1075 : ℤ)) 100 100 ((100 : Nat) * 10 ^ 2) ≤ 2 / 10 ^ 10 := by
      unfold roundErr; decide +kernel
    have := (Rat.cast_le (K := ℝ)).2 h
    unfold roundErr at this ⊢
    push_cast at this ⊢
    exact this
  refine ⟨?_, ?_, ?_, ?_, ?_, ?_, devErr_100, ?_, ?_, ?_, ?_⟩
  · rw [hF]; exact hr
  · rw [hF]; exact hd
  · exact RoundedZ.StatWithin.mono (fun w hw hb => C87_statistics b64 _ _ hr F.stat hs 100 (by norm_num) 10 w hw hb) le_rfl meanErr_100 stdErr_100
  · intro x w hw hx hb
    obtain ⟨vs, h1, h2, h3⟩ := C87_convolve b64 _ _ hr F.conv hc 100 (by norm_num) 10 x w hw hx hb
    exact ⟨vs, h1, h2, fun i v hv => (h3 i v hv).trans hc100⟩
  · show (0 : ℝ) ≤ 10
    norm_num
  · show (0 : ℝ) ≤ 2 / 10 ^ 10
    positivity
  · show (1 : ℝ) / 10 ^ 6 < 1
    norm_num
  · show F.rnd (1 / 10 ^ 6) + 1 / 10 ^ 12 < 1
    rw [hF]
    linarith [show (2 : ℝ) / 10 ^ 6 + 1 / 10 ^ 12 < 1 by norm_num]
  · show (1 : ℝ) / 10 ^ 7 ≤ 1 / 10 ^ 6
    norm_num
  · show 1 / 10 ^ 7 + 1 / 10 ^ 12 ≤ F.rnd (1 / 10 ^ 6)
    rw [hF]
    linarith [show (1 : ℝ) / 10 ^ 7 + 1 / 10 ^ 12 ≤ 9 / 10 ^ 7 by norm_num]

theorem b64_eps15 : b64 (1 / 10 ^ 15 : ℝ) ≤ 2 / 10 ^ 15 := by
  have hr := b64_isRounding (K := ℝ)
  have h := (abs_le.1 (hr.err (1 / 10 ^ 15 : ℝ))).2
  rw [abs_of_pos (by positivity : (0 : ℝ) < 1 / 10 ^ 15)] at h
  have hu : (2 : ℝ) ^ (-53 : ℤ) ≤ 1 / 10 := by
    rw [zpow_neg, ← one_div]; apply one_div_le_one_div_of_le (by norm_num); norm_num
  have hη : (2 : ℝ) ^ (-1075 : ℤ) ≤ 1 / 10 ^ 20 :=
    (zpow_le_zpow_right₀ (by norm_num) (by norm_num : (-1075 : ℤ) ≤ -100)).trans (by
      rw [zpow_neg, ← one_div]; apply one_div_le_one_div_of_le (by norm_num); norm_num)
  nlinarith [show (1 : ℝ) / 10 * (1 / 10 ^ 15) + 1 / 10 ^ 20 + 1 / 10 ^ 15 ≤ 2 / 10 ^ 15 by norm_num]

theorem columnErr_10000 {n : Nat} (hn : n ≤ 10000) :
    columnErr ((2 : ℝ) ^ (-53 : ℤ)) (2 ^ (-1075 : ℤ)) (b64 (1 / 10 ^ 15)) 100 10 n ≤ 1 / 10 ^ 6 := by
  refine (Rounded.columnErr_mono (b64_isRounding (K := ℝ)) 100 10 hn).trans ?_
  have h : columnErr ((2 : ℚ) ^ (-53 : ℤ)) (2 ^ (-1075 : ℤ)) (2 / 10 ^ 15) 100 10 10000 ≤ 1 / 10 ^ 6 := by
    unfold columnErr fullErr updateErr roundErr; decide +kernel
  have h := (Rat.cast_le (K := ℝ)).2 h
  unfold columnErr fullErr at h ⊢
  refine le_trans (mul_le_mul_of_nonneg_left (c := roundErr ((2 : ℝ) ^ (-53 : ℤ)) (2 ^ (-1075 : ℤ)) (100 + 3) (4 * 100 + 1) (4 * (100 : Nat) * 10 ^ 2) +
      2 / 10 ^ 15 + (10000 : Nat) * updateErr ((2 : ℝ) ^ (-53 : ℤ)) (2 ^ (-1075 : ℤ)) 100 10) ?_ (by positivity)) ?_
  · have := b64_eps15
    show roundErr _ _ _ _ _ + b64 (1 / 10 ^ 15) + _ ≤ _
    linarith
  · unfold updateErr roundErr at h ⊢
    push_cast at h ⊢
    exact h

theorem sqrt_100 : √((100 : Nat) : ℝ) = 10 := by
  rw [Real.sqrt_eq_iff_mul_self_eq (by positivity) (by norm_num)]; norm_num

theorem rootErr_200 {B A : ℝ} (hB : B ≤ (4 / 10 ^ 3) ^ 2) (hA : 0 ≤ A) (hA' : A ≤ 200) : rootErr ((2 : ℝ) ^ (-53 : ℤ)) (2 ^ (-1075 : ℤ)) B A ≤ 1 / 200 := by
  have h5 : √B ≤ 4 / 10 ^ 3 := Real.sqrt_le_iff.2 ⟨by positivity, hB⟩
  have hu : (2 : ℝ) ^ (-53 : ℤ) ≤ 1 / 10 ^ 15 := by
    rw [zpow_neg, ← one_div]; apply one_div_le_one_div_of_le (by norm_num); norm_num
  have hη : (2 : ℝ) ^ (-1075 : ℤ) ≤ 1 / 10 ^ 20 :=
    (zpow_le_zpow_right₀ (by norm_num) (by norm_num : (-1075 : ℤ) ≤ -100)).trans (by
      rw [zpow_neg, ← one_div]; apply one_div_le_one_div_of_le (by norm_num); norm_num)
  have hu0 : (0 : ℝ) < 2 ^ (-53 : ℤ) := by positivity
  have h9 := mul_le_mul (by linarith : 1 + (2 : ℝ) ^ (-53 : ℤ) ≤ 1 + 1 / 10 ^ 15) h5 (Real.sqrt_nonneg _) (by positivity)
  have h10 := mul_le_mul hu hA' hA (by positivity)
  unfold rootErr
  linarith [show (1 + 1 / 10 ^ 15 : ℝ) * (4 / 10 ^ 3) + 1 / 10 ^ 15 * 200 + 1 / 10 ^ 20 ≤ 1 / 200 by norm_num]

theorem euclidErr_10000 {n : Nat} (hn : n ≤ 10000) :
    euclidSqErr ((2 : ℝ) ^ (-53 : ℤ)) (2 ^ (-1075 : ℤ)) (b64 (1 / 10 ^ 15)) 100 10 n ≤ (4 / 10 ^ 3) ^ 2 := by
  have hr := b64_isRounding (K := ℝ)
  refine max_le ((columnErr_10000 hn).trans (by norm_num)) ?_
  have hn' : (n : ℝ) ≤ 10000 := by exact_mod_cast hn
  refine (roundErr_mono hr.u_nonneg hr.η_nonneg (k' := 10004) (n' := 20000) (A' := 8000000) (by omega) (by omega) (by positivity)
    (by nlinarith)).trans ?_
  have h : roundErr ((2 : ℚ) ^ (-53 : ℤ)) (2 ^ (-1075 : ℤ)) 10004 20000 (8000000) ≤ (4 / 10 ^ 3) ^ 2 := by
    unfold roundErr; decide +kernel
  have := (Rat.cast_le (K := ℝ)).2 h
  unfold roundErr at this ⊢
  push_cast at this ⊢
  exact this

theorem znormErr_10000 {n : Nat} (hn : n ≤ 10000) :
    znormSqErr ((2 : ℝ) ^ (-53 : ℤ)) (2 ^ (-1075 : ℤ)) (b64 (1 / 10 ^ 12)) 100 10 (1 / 10 ^ 12) (1 / 10 ^ 12) 1 0 (2 / 10 ^ 10) n ≤ (4 / 10 ^ 3) ^ 2 := by
  have hr := b64_isRounding (K := ℝ)
  have hn' : (n : ℝ) ≤ 10000 := by exact_mod_cast hn
  have hE : max (dotColumnErr ((2 : ℝ) ^ (-53 : ℤ)) (2 ^ (-1075 : ℤ)) 100 10 (2 / 10 ^ 10) n)
      (roundErr ((2 : ℝ) ^ (-53 : ℤ)) (2 ^ (-1075 : ℤ)) (n + 2) (2 * n) (2 * n * 10 ^ 2)) ≤ 1 / 10 ^ 5 / 2 := by
    refine max_le ((dotColumnErr_mono hr 100 (by norm_num) (by positivity) hn).trans ?_)
      ((roundErr_mono hr.u_nonneg hr.η_nonneg (k' := 10002) (n' := 20000) (A' := 2000000) (by omega) (by omega) (by positivity)
        (by nlinarith)).trans ?_)
    · have h : dotColumnErr ((2 : ℚ) ^ (-53 : ℤ)) (2 ^ (-1075 : ℤ)) 100 10 (2 / 10 ^ 10) 10000 ≤ 1 / 10 ^ 5 / 2 := by
        unfold dotColumnErr rounded; decide +kernel
      have := (Rat.cast_le (K := ℝ)).2 h
      rw [dotColumnErr_cast] at this
      push_cast at this
      exact this
    · have h : roundErr ((2 : ℚ) ^ (-53 : ℤ)) (2 ^ (-1075 : ℤ)) 10002 20000 (2000000) ≤ 1 / 10 ^ 5 / 2 := by
        unfold roundErr; decide +kernel
      have := (Rat.cast_le (K := ℝ)).2 h
      unfold roundErr at this ⊢
      push_cast at this ⊢
      exact this
  unfold znormSqErr
  refine (znormErr_mono hr 100 devErr_100 b64_eps hE).trans ?_
  have h : znormErr ((2 : ℚ) ^ (-53 : ℤ)) (2 ^ (-1075 : ℤ)) (2 / 10 ^ 12) 100 10 (1 / 10 ^ 12) (1 / 10 ^ 12) 1 0 (1 / 10 ^ 5 / 2) ≤ (4 / 10 ^ 3) ^ 2 := by
    unfold znormErr corrErr noiseErr noiseMax devErr rounded prodErr; decide +kernel
  have := (Rat.cast_le (K := ℝ)).2 h
  rw [znormErr_cast] at this
  push_cast at this
  exact this

/-- Calculations in `float64` with subsequences of length 100, queries of at most 10000 points (a series of any length), points of at most 10 in absolute value, numbers that are floats for
Euclidean generators; no noise elimination, and every subsequence has a deviation of at least 1 or at most 1e-7 for
z-normalised generators; if columns are calculated, no Euclidean distance below 1/1000. -/
structure BatchCase.Float64 (B : BatchCase α) (F : FloatEnv) (idss : List (List Nat)) : Prop extends B.Any idss where
  rnd : F.rnd = b64
  dots : F.dots.Ok b64
  stat : F.stat.Direct b64
  conv : RoundedZ.ConvDirect b64 F.conv
  length : B.m = 100
  points : B.q.length ≤ 10000
  data : ∀ k ∈ B.kinds, ∀ x ∈ B.s ++ B.q, |B.π k.2 x| ≤ 10
  floats : ∀ k ∈ B.kinds, ∀ scale, k.1 = .euclidean scale → ∀ x ∈ B.s ++ B.q, b64 (B.π k.2 x) = B.π k.2 x
  noise : ∀ k ∈ B.kinds, ∀ e scale, k.1 = .znorm e scale → e = 0
  clear : ∀ k ∈ B.kinds, ∀ e scale, k.1 = .znorm e scale → (∀ j < B.w, RoundedZ.Clear 1 (1 / 10 ^ 7) (std 100 (seqOf (B.s.map (B.π k.2))) j)) ∧
    ∀ i < B.h, RoundedZ.Clear 1 (1 / 10 ^ 7) (std 100 (seqOf (B.q.map (B.π k.2))) i)
  far : (∃ a c, a < c ∧ .columns a c ∈ B.us) → ∀ id k scale, B.kinds[id]? = some k → k.1 = .euclidean scale → ∀ r < B.h, ∀ c < B.w,
    ¬ ((r : Int) - c ≤ B.b ∧ (c : Int) - r ≤ B.b) → 1 / 1000 ≤ B.value id r c

theorem BatchCase.Float64.ok {B : BatchCase α} {F : FloatEnv} {idss : List (List Nat)} (h : B.Float64 F idss) : B.FloatOk F float64Bounds idss where
  toAny := h.toAny
  env := by rw [h.length]; exact float64_good h.rnd h.dots h.stat h.conv
  data := by
    intro k hk
    have hb := h.data k hk
    have h1 : ∀ x ∈ B.s.map (B.π k.2), |x| ≤ 10 := fun x hx => by
      obtain ⟨y, hy, rfl⟩ := List.mem_map.mp hx
      exact hb y (List.mem_append_left _ hy)
    have h2 : ∀ x ∈ B.q.map (B.π k.2), |x| ≤ 10 := fun x hx => by
      obtain ⟨y, hy, rfl⟩ := List.mem_map.mp hx
      exact hb y (List.mem_append_right _ hy)
    unfold GenKind.FloatData
    cases hk' : k.1 with
    | euclidean scale =>
      have hf := h.floats k hk scale hk'
      refine ⟨fun x hx => ⟨?_, h1 x hx⟩, fun x hx => ⟨?_, h2 x hx⟩⟩
      · obtain ⟨y, hy, rfl⟩ := List.mem_map.mp hx
        rw [h.rnd]; exact hf y (List.mem_append_left _ hy)
      · obtain ⟨y, hy, rfl⟩ := List.mem_map.mp hx
        rw [h.rnd]; exact hf y (List.mem_append_right _ hy)
    | znorm e scale =>
      obtain ⟨c1, c2⟩ := h.clear k hk e scale hk'
      rw [h.length]
      refine ⟨h1, h2, fun j hj => c1 j ?_, fun i hi => c2 i ?_⟩
      · unfold BatchCase.w; rw [h.length]; rw [List.length_map] at hj; omega
      · unfold BatchCase.h; rw [h.length]; rw [List.length_map] at hi; omega
  far := by
    intro hcol id hid r hr c hc hb
    have hk := List.getElem?_eq_getElem hid
    unfold BatchCase.nanBelow
    rw [hk]
    simp only
    cases hk' : (B.kinds[id]).1 with
    | euclidean scale =>
      have := h.far hcol id _ scale hk hk' r hr c hc hb
      show columnErr ((2 : ℝ) ^ (-53 : ℤ)) (2 ^ (-1075 : ℤ)) (F.rnd (1 / 10 ^ 15)) B.m 10 B.q.length ≤ _
      rw [h.length, h.rnd]
      refine (columnErr_10000 h.points).trans ?_
      calc (1 : ℝ) / 10 ^ 6 = (1 / 1000) ^ 2 := by norm_num
        _ ≤ _ := pow_le_pow_left₀ (by norm_num) this 2
    | znorm e scale => exact sq_nonneg _

/-- The error in these calculations. -/
theorem BatchCase.Float64.err {B : BatchCase α} {F : FloatEnv} {idss : List (List Nat)} (h : B.Float64 F idss) (id : Nat) :
    B.floatErr F float64Bounds id ≤ 1 / 200 := by
  unfold BatchCase.floatErr
  cases hk : B.kinds[id]? with
  | none => norm_num
  | some k =>
    have hm := List.mem_of_getElem? hk
    simp only
    rw [h.length]
    cases hk' : k.1 with
    | euclidean scale =>
      show rootErr ((2 : ℝ) ^ (-53 : ℤ)) (2 ^ (-1075 : ℤ)) (euclidSqErr _ _ (F.rnd (1 / 10 ^ 15)) 100 10 B.q.length) (2 * √((100 : Nat) : ℝ) * 10) ≤ 1 / 200
      rw [h.rnd, sqrt_100]
      exact rootErr_200 (euclidErr_10000 h.points) (by norm_num) (by norm_num)
    | znorm e scale =>
      obtain rfl := h.noise k hm e scale hk'
      show rootErr ((2 : ℝ) ^ (-53 : ℤ)) (2 ^ (-1075 : ℤ)) (znormSqErr _ _ (F.rnd (1 / 10 ^ 12)) 100 10 (1 / 10 ^ 12) (1 / 10 ^ 12) 1 0 (2 / 10 ^ 10) B.q.length)
        (2 * √((100 : Nat) : ℝ)) ≤ 1 / 200
      rw [h.rnd, sqrt_100]
      exact rootErr_200 (znormErr_10000 h.points) (by norm_num) (by norm_num)

theorem Spec.IsNearestWithin.mono {ε ε' : ℝ} (h : ε ≤ ε') {d : Nat → ℝ} {n : Nat} {rows : Nat → Prop} {v : Fl ℝ} {i : Int} (hd : IsNearestWithin ε d n rows v i) :
    IsNearestWithin ε' d n rows v i := by
  rcases hd with hd | ⟨r, h1, h2, h3, y, h4, h5, h6⟩
  · exact .inl hd
  · exact .inr ⟨r, h1, h2, h3, y, h4, h5.trans h, fun r' h7 h8 => (h6 r' h7 h8).trans (by linarith)⟩

/-- **C88, in numbers.** `MatrixProfileLR` consumers in `float64`: every entry of a profile is within 1/200 of the distance to the subsequence named by the
index, and no calculated pair is closer by more than 1/200. -/
theorem C88_float64 (B : BatchCase α) (F : FloatEnv) (ids : List Nat) (hB : B.Float64 F (ids.map fun id => [id])) :
    ∃ cons', B.floatResult F MP.ops (ids.map fun id => (MP.new, [id])) = .ok cons' ∧
      List.Forall₂ (fun id c => c.2 = [id] ∧ IsProfileWithin (1 / 200) (B.value id) B.h B.w B.done c.1) ids cons' := by
  obtain ⟨cons', h1, h2⟩ := C88_profile B F float64Bounds ids hB.ok
  refine ⟨cons', h1, h2.imp fun id c h => ⟨h.1, h.2.lengths, fun j hj => ?_⟩⟩
  obtain ⟨l, r, v, li, ri, i, e1, e2, e3, e4, e5, e6, e7, e8, e9⟩ := h.2.entries j hj
  have he := hB.err id
  exact ⟨l, r, v, li, ri, i, e1, e2, e3, e4, e5, e6, e7.mono he, e8.mono he, e9.mono he⟩

/-! ### A concrete case -/

/-- 101 points alternating between 2 and -2; a Euclidean and a z-normalised generator; all diagonals, then all columns. -/
noncomputable def exFloat : BatchCase ℤ where
  memE := fun n => List.replicate n .nan
  memZ := ZN.zeroMem
  shuffle := List.reverse
  π := fun _ x => (x : ℝ)
  m := 100
  s := (List.range 101).map fun k => if k % 2 = 0 then 2 else -2
  query := none
  nDim := 1
  buffer := some 0
  kinds := [(.euclidean 1, 0), (.znorm 0 1, 0)]
  needed := [1, 0]
  us := [.diagonals 1, .columns 0 2]
  os := [.diagonals (fun _ => false) (.int 7), .columns (fun _ => false) none (.int 2)]

/-- Sums and statistics that add from the left. -/
noncomputable def exEnv : FloatEnv := ⟨b64, .left b64, .left b64, RoundedZ.convLeft b64⟩

theorem exFloat_points (x : ℤ) (hx : x ∈ exFloat.s ++ exFloat.q) : x = 2 ∨ x = -2 := by
  have : x ∈ exFloat.s := (List.mem_append.mp hx).elim (·) (·)
  obtain ⟨k, -, rfl⟩ := List.mem_map.mp this
  split
  · exact .inl rfl
  · exact .inr rfl

theorem exFloat_order : exFloat.order = [1] := rfl

theorem exFloat_value (r : Nat) (hr : r < exFloat.h) (c : Nat) (hc : c < exFloat.w) (hb : ¬ ((r : Int) - c ≤ exFloat.b ∧ (c : Int) - r ≤ exFloat.b)) :
    4 ≤ exFloat.value 0 r c := by
  have hr : r < 2 := hr
  have hc : c < 2 := hc
  have hb : ¬ ((r : Int) - c ≤ 0 ∧ (c : Int) - r ≤ 0) := hb
  show 4 ≤ √(sqd 100 (seqOf (((exFloat.s.drop c).take 100).map fun x : ℤ => (x : ℝ))) (seqOf (((exFloat.s.drop r).take 100).map fun x : ℤ => (x : ℝ))) 0 0)
  refine Real.le_sqrt_of_sq_le ?_
  unfold sqd
  refine le_trans ?_ (Finset.single_le_sum (fun i _ => sq_nonneg _) (Finset.mem_range.2 (by norm_num : 0 < 100)))
  have : (r = 0 ∧ c = 1) ∨ (r = 1 ∧ c = 0) := by omega
  have e0 : ((exFloat.s.drop 0).take 100)[0]? = some 2 := rfl
  have e1 : ((exFloat.s.drop 1).take 100)[0]? = some (-2) := rfl
  rcases this with ⟨rfl, rfl⟩ | ⟨rfl, rfl⟩ <;> simp only [seqOf, List.getD_eq_getElem?_getD, List.getElem?_map, Nat.add_zero, e0, e1] <;> norm_num

theorem exFloat_ok {idss : List (List Nat)} (h : ∀ ids ∈ idss, ∀ id ∈ ids, id = 0 ∨ id = 1) (h0 : ∃ ids ∈ idss, 0 ∈ ids) (h1 : ∃ ids ∈ idss, 1 ∈ ids) :
    exFloat.Float64 exEnv idss where
  memE := fun n => List.length_replicate
  memZ := ZN.zeroMem_ok
  perm := List.reverse_perm
  args := by
    refine ⟨by decide, by simp [exFloat], by simp [exFloat], by decide, by simp [exFloat], ?_, ?_, by decide, ?_⟩
    · simp [exFloat]
    · intro ids h3 id h4
      rcases h ids h3 id h4 with rfl | rfl <;> simp [exFloat]
    · intro id
      constructor
      · intro h3
        have : id = 1 ∨ id = 0 := by simpa [exFloat] using h3
        rcases this with rfl | rfl
        · exact h1
        · exact h0
      · rintro ⟨ids, h3, h4⟩
        rcases h ids h3 id h4 with rfl | rfl <;> simp [exFloat]
  calls := by
    show AreBatchCalls 100 101 101 [1] BSt.init [.diagonals 1, .columns 0 2]
      [.diagonals (fun _ => false) (.int 7), .columns (fun _ => false) none (.int 2)]
    refine ⟨⟨7, .inl rfl, by decide, by decide, fun k _ hk => ⟨?_, rfl⟩, .inl rfl⟩, ⟨0, 2, .inl ⟨rfl, rfl⟩, by decide, .inl rfl, by simp, .inl (by decide)⟩, trivial⟩
    obtain rfl : k = 0 := by omega
    decide
  rnd := rfl
  dots := Rounded.left_ok _
  stat := RoundedZ.Stat.left_direct b64
  conv := RoundedZ.convLeft_direct b64
  length := rfl
  points := by simp [exFloat, BatchCase.q]
  data := by
    intro k hk x hx
    rcases exFloat_points x hx with rfl | rfl <;> simp [exFloat] <;> norm_num
  floats := by
    intro k hk scale _ x hx
    refine Rounded.b64_digits 0 (by norm_num) _ ⟨x, by simp [exFloat]⟩ ?_
    rcases exFloat_points x hx with rfl | rfl <;> simp [exFloat] <;> norm_num
  noise := by
    intro k hk e scale h
    simp only [exFloat, List.mem_cons, List.not_mem_nil, or_false] at hk
    rcases hk with rfl | rfl
    · cases h
    · cases h; rfl
  clear := by
    intro k hk e scale _
    have hz : exFloat.s.map (exFloat.π k.2) = zigzag := by
      simp only [exFloat, zigzag, List.map_map]
      refine List.map_congr_left fun j _ => ?_
      simp only [Function.comp]
      split <;> simp
    have h2 : exFloat.w = 2 := rfl
    have h3 : exFloat.h = 2 := rfl
    have h4 : exFloat.q = exFloat.s := rfl
    rw [h2, h3, h4, hz]
    refine ⟨fun j hj => .inl ?_, fun j hj => .inl ?_⟩ <;> rw [zigzag_std j hj] <;> norm_num
  far := by
    intro _ id k scale hk hk' r hr c hc hb
    have hid : id = 0 := by
      match id, hk with
      | 0, _ => rfl
      | 1, hk => cases hk; cases hk'
    subst hid
    exact le_trans (by norm_num) (exFloat_value r hr c hc hb)

/-- C88 applies to this calculation. -/
example : ∃ cons', exFloat.floatResult exEnv MP.ops [(MP.new, [1]), (MP.new, [0])] = .ok cons' ∧
    List.Forall₂ (fun id c => c.2 = [id] ∧ IsProfileWithin (1 / 200) (exFloat.value id) 2 2 exFloat.done c.1) [1, 0] cons' :=
  C88_float64 exFloat exEnv [1, 0] (exFloat_ok (by simp) (by simp) (by simp))

example : ∃ cons', exFloat.floatResult exEnv DM.ops [(DM.new, [1]), (DM.new, [0])] = .ok cons' ∧
    List.Forall₂ (fun id c => c.2 = [id] ∧ exFloat.ShowsWithin (exFloat.floatErr exEnv float64Bounds id) id c.1) [1, 0] cons' :=
  C88_matrix exFloat exEnv float64Bounds [1, 0] (exFloat_ok (by simp) (by simp) (by simp)).ok

example : ∃ cons', exFloat.floatResult exEnv recorder [([], [1, 0])] = .ok cons' ∧
    List.Forall₂ (fun ids c => c.2 = ids ∧ List.Forall₂ (NearCall (fun id => CloseVal (exFloat.floatErr exEnv float64Bounds id)) ids) (exFloat.events ids) c.1)
      [[1, 0]] cons' :=
  C88_calls exFloat exEnv float64Bounds [[1, 0]] (exFloat_ok (by simp) (by simp) (by simp)).ok

/-- No distance is near the threshold 1. -/
example : ∃ cons', exFloat.floatResult exEnv TC.ops [(TC.new [.fin 1, .pinf], [0]), (TC.new [], [1])] = .ok cons' ∧
    List.Forall₂ (fun c p => p.2 = [c.2] ∧ ∀ (t : Nat) (θ : Fl ℝ), c.1[t]? = some θ → ∀ j < exFloat.w,
      p.1.counts t j = BSt.init.tally exFloat.h true exFloat.order (exFloat.below c.2 θ j) (exFloat.belowMasked c.2 θ j) j exFloat.us 0)
      [([.fin 1, .pinf], 0), ([], 1)] cons' := by
  have hB := exFloat_ok (idss := [[0], [1]]) (by simp) (by simp) (by simp)
  refine C88_counts exFloat exEnv float64Bounds [([.fin 1, .pinf], 0), ([], 1)] hB.ok fun c hc t ht r hr j hj hd => ?_
  simp only [List.mem_cons, List.not_mem_nil, or_false] at hc
  rcases hc with rfl | rfl
  · obtain rfl : t = 1 := by simpa using ht
    have h1 := exFloat_value r hr j hj (hB.done_far hd)
    have h2 := hB.err 0
    rw [abs_of_nonneg (by linarith)]
    simp only
    linarith
  · simp at ht

end Verif
