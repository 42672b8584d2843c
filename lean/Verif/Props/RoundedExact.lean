import Verif.Props.RoundedColumn

/-!
# C83: data with few digits: the Euclidean generator is exact in `float64`
-/

namespace Verif
open Spec

namespace Rounded
variable {K : Type} [Field K] [LinearOrder K] [IsStrictOrderedRing K] [FloorRing K]

/-- `t` binary digits after the point. -/
def Digits (t : Nat) (x : K) : Prop := ∃ k : ℤ, x = k / 2 ^ t

section
omit [LinearOrder K] [IsStrictOrderedRing K] [FloorRing K]
variable [CharZero K] {t : Nat} {x y : K}

theorem Digits.add (hx : Digits t x) (hy : Digits t y) : Digits t (x + y) := by
  obtain ⟨k, rfl⟩ := hx; obtain ⟨l, rfl⟩ := hy
  exact ⟨k + l, by push_cast; ring⟩

theorem Digits.sub (hx : Digits t x) (hy : Digits t y) : Digits t (x - y) := by
  obtain ⟨k, rfl⟩ := hx; obtain ⟨l, rfl⟩ := hy
  exact ⟨k - l, by push_cast; ring⟩

theorem Digits.mul (hx : Digits t x) (hy : Digits t y) : Digits (2 * t) (x * y) := by
  obtain ⟨k, rfl⟩ := hx; obtain ⟨l, rfl⟩ := hy
  exact ⟨k * l, by push_cast; rw [two_mul, pow_add, div_mul_div_comm]⟩

theorem Digits.two (hx : Digits t x) : Digits t (2 * x) := by rw [two_mul]; exact hx.add hx

theorem Digits.zero : Digits t (0 : K) := ⟨0, by simp⟩

theorem Digits.sum {l : List K} (h : ∀ x ∈ l, Digits t x) : Digits t l.sum := by
  induction l with
  | nil => exact Digits.zero
  | cons a l ih =>
    rw [List.sum_cons]
    exact (h a (by simp)).add (ih fun x hx => h x (by simp [hx]))

end

/-- Numbers with few digits are floats. -/
theorem b64_digits (t : Nat) (ht : t ≤ 1000) (x : K) (hx : Digits t x) (hb : |x| * 2 ^ t ≤ 2 ^ 53) : b64 x = x := by
  obtain ⟨k, hk⟩ := hx
  have hpos : (0 : K) < 2 ^ t := by positivity
  refine roundTo_of_bits 53 (by norm_num) (-1022) (52 - t) (by omega) k ?_ x ?_
  · have : ((|k| : ℤ) : K) ≤ ((2 ^ 53 : ℤ) : K) := by
      rw [hk, abs_div, abs_of_pos hpos, div_mul_cancel₀ _ hpos.ne', ← Int.cast_abs] at hb
      exact_mod_cast hb
    exact_mod_cast this
  · rw [hk, div_eq_mul_inv, ← zpow_natCast, ← zpow_neg]
    congr 2; push_cast; ring

/-- A number with few digits that is not zero is not tiny. -/
theorem digits_pos (t : Nat) (x : K) (hx : Digits t x) (h : 0 < x) : 1 / 2 ^ t ≤ x := by
  obtain ⟨k, hk⟩ := hx
  have hpos : (0 : K) < 2 ^ t := by positivity
  rw [hk] at h ⊢
  have h1 : (0 : K) < k := by
    by_contra hn
    exact absurd h (not_lt.2 (div_nonpos_of_nonpos_of_nonneg (not_lt.1 hn) hpos.le))
  have h2 : (1 : ℤ) ≤ k := by exact_mod_cast h1
  exact div_le_div_of_nonneg_right (by exact_mod_cast h2) hpos.le

/-- Data with `t` binary digits after the point, of absolute value at most `L`. -/
def Short (t : Nat) (L : K) (l : List K) : Prop := ∀ x ∈ l, Digits t x ∧ |x| ≤ L

/-- A dot product is exact in any order. -/
theorem dot_exact {t : Nat} (ht : t ≤ 24) {L : K} {l : List (K × K)} {v : K} (h : DotEval b64 l v)
    (hl : ∀ p ∈ l, Digits t p.1 ∧ |p.1| ≤ L ∧ Digits t p.2 ∧ |p.2| ≤ L) (hB : l.length * L ^ 2 * 2 ^ (2 * t) ≤ 2 ^ 53) :
    v = (l.map fun p => p.1 * p.2).sum ∧ |v| ≤ l.length * L ^ 2 ∧ Digits (2 * t) v := by
  have key : ∀ (n : Nat) (v S : K), v = b64 S → |S| ≤ n * L ^ 2 → Digits (2 * t) S → n * L ^ 2 * 2 ^ (2 * t) ≤ 2 ^ 53 →
      v = S ∧ |v| ≤ n * L ^ 2 ∧ Digits (2 * t) v := by
    intro n v S hv hS hd hn
    have : b64 S = S := b64_digits (2 * t) (by omega) S hd ((mul_le_mul_of_nonneg_right hS (by positivity)).trans hn)
    rw [this] at hv
    exact ⟨hv, by rw [hv]; exact hS, by rw [hv]; exact hd⟩
  have prod : ∀ x y : K, |x| ≤ L → |y| ≤ L → |x * y| ≤ L ^ 2 := by
    intro x y hx hy
    rw [abs_mul, sq]
    exact mul_le_mul hx hy (abs_nonneg _) ((abs_nonneg _).trans hx)
  have mono : ∀ a b : Nat, a ≤ b → (b : K) * L ^ 2 * 2 ^ (2 * t) ≤ 2 ^ 53 → (a : K) * L ^ 2 * 2 ^ (2 * t) ≤ 2 ^ 53 := by
    intro a b hab hb
    refine le_trans ?_ hb
    have : (a : K) ≤ b := by exact_mod_cast hab
    gcongr
  induction h with
  | mul x y =>
    obtain ⟨d1, b1, d2, b2⟩ := hl (x, y) (by simp)
    have := key 1 _ (x * y) rfl (by simpa using prod x y b1 b2) (d1.mul d2) (by simpa using hB)
    simpa using this
  | @add l l' l'' a b h h' hp ih ih' =>
    have hlen : l''.length = l.length + l'.length := by rw [hp.length_eq, List.length_append]
    have hm : ∀ p, p ∈ l'' ↔ p ∈ l ∨ p ∈ l' := fun p => by rw [hp.mem_iff, List.mem_append]
    obtain ⟨i1, i2, i3⟩ := ih (fun p hp => hl p ((hm p).2 (Or.inl hp))) (mono _ _ (by omega) hB)
    obtain ⟨j1, j2, j3⟩ := ih' (fun p hp => hl p ((hm p).2 (Or.inr hp))) (mono _ _ (by omega) hB)
    have hs : (l''.map fun p => p.1 * p.2).sum = a + b := by
      rw [(hp.map _).sum_eq, List.map_append, List.sum_append, ← i1, ← j1]
    rw [hs]
    refine key l''.length _ (a + b) rfl ?_ (i3.add j3) hB
    rw [hlen]; push_cast
    have := abs_add_le a b
    linarith
  | @fma l l'' a x y h hp ih =>
    have hlen : l''.length = l.length + 1 := by rw [hp.length_eq, List.length_cons]
    have hm : ∀ p, p ∈ l'' ↔ p = (x, y) ∨ p ∈ l := fun p => by rw [hp.mem_iff, List.mem_cons]
    obtain ⟨i1, i2, i3⟩ := ih (fun p hp => hl p ((hm p).2 (Or.inr hp))) (mono _ _ (by omega) hB)
    obtain ⟨d1, b1, d2, b2⟩ := hl (x, y) ((hm _).2 (Or.inl rfl))
    have hs : (l''.map fun p => p.1 * p.2).sum = a + x * y := by
      rw [(hp.map _).sum_eq, List.map_cons, List.sum_cons, ← i1, add_comm]
    rw [hs]
    refine key l''.length _ (a + x * y) rfl ?_ (i3.add (d1.mul d2)) hB
    rw [hlen]; push_cast
    have := abs_add_le a (x * y)
    have := prod x y b1 b2
    linarith

theorem Short.zip {t : Nat} {L : K} {w x : List K} (hw : Short t L w) (hx : Short t L x) :
    ∀ p ∈ w.zip x, Digits t p.1 ∧ |p.1| ≤ L ∧ Digits t p.2 ∧ |p.2| ≤ L := by
  intro p hp
  have h1 := hw _ (List.of_mem_zip hp).1
  have h2 := hx _ (List.of_mem_zip hp).2
  exact ⟨h1.1, h1.2, h2.1, h2.2⟩

/-- The square of a difference is exact. -/
theorem diff2_exact {t : Nat} (ht : t ≤ 24) {L x y : K} (hx : Digits t x ∧ |x| ≤ L) (hy : Digits t y ∧ |y| ≤ L)
    (hB : 4 * L ^ 2 * 2 ^ (2 * t) ≤ 2 ^ 53) : diff2 b64 x y = (x - y) ^ 2 := by
  have hd := hx.1.sub hy.1
  have hsq := diff_bound hx.2 hy.2
  have hpos : (0 : K) < 2 ^ t := by positivity
  have h1 : b64 (x - y) = x - y := by
    refine b64_digits t (by omega) _ hd ?_
    have h2 : (|x - y| * 2 ^ t) ^ 2 ≤ 2 ^ 53 := by
      rw [mul_pow, sq_abs, ← pow_mul, mul_comm t 2]
      exact (mul_le_mul_of_nonneg_right hsq (by positivity)).trans hB
    have h3 : (|x - y| * 2 ^ t) ^ 2 ≤ (2 ^ 53) ^ 2 := h2.trans (by norm_num)
    exact (pow_le_pow_iff_left₀ (by positivity) (by positivity) (by norm_num)).1 h3
  unfold diff2
  rw [h1, ← sq]
  refine b64_digits (2 * t) (by omega) _ (by rw [sq]; exact hd.mul hd) ?_
  rw [abs_of_nonneg (sq_nonneg _)]
  exact (mul_le_mul_of_nonneg_right hsq (by positivity)).trans hB

theorem eps_le : b64 (Eucl.eps : K) ≤ 1 / 2 ^ 48 := by
  have h1 : (Eucl.eps : K) ≤ 1 / 2 ^ 48 := by unfold Eucl.eps; norm_num
  have h2 := b64_isRounding (K := K) |>.mono h1
  have h3 : b64 (1 / 2 ^ 48 : K) = 1 / 2 ^ 48 := b64_digits 48 (by norm_num) _ ⟨1, by simp⟩ (by
    rw [abs_of_pos (by positivity)]; norm_num)
  rwa [h3] at h2

theorem pairSum_digits {t : Nat} {w x : List K} (hw : ∀ y ∈ w, Digits t y) (hx : ∀ y ∈ x, Digits t y) :
    Digits (2 * t) (pairSum (fun a b : K => (a - b) ^ 2) w x) := by
  unfold pairSum
  apply Digits.sum
  intro y hy
  rw [List.mem_iff_getElem] at hy
  obtain ⟨i, hi, rfl⟩ := hy
  rw [List.getElem_zipWith, sq]
  have := (hw _ (List.getElem_mem (l := w) (n := i) (by simp at hi; omega))).sub (hx _ (List.getElem_mem (l := x) (n := i) (by simp at hi; omega)))
  exact this.mul this

/-- A fully calculated squared distance is exact. -/
theorem expand_exact {t : Nat} (ht : t ≤ 24) {L : K} {w x : List K} {m : Nat} (hm : w.length = m) (hm' : x.length = m) (hw : Short t L w)
    (hx : Short t L x) (hB : 4 * m * L ^ 2 * 2 ^ (2 * t) ≤ 2 ^ 53) {a b c : K} (ha : DotEval b64 (w.zip w) a) (hb : DotEval b64 (w.zip x) b)
    (hc : DotEval b64 (x.zip x) c) : expand b64 a b c = pairSum (fun a b => (a - b) ^ 2) w x := by
  have hpow : (0 : K) < 2 ^ (2 * t) := by positivity
  have hmL : (0 : K) ≤ m * L ^ 2 := by positivity
  have hlen : ∀ y z : List K, y.length = m → z.length = m → (y.zip z).length = m := fun y z h h' => by rw [List.length_zip, h, h', Nat.min_self]
  have hB1 : (m : K) * L ^ 2 * 2 ^ (2 * t) ≤ 2 ^ 53 := by nlinarith
  obtain ⟨a1, a2, a3⟩ := dot_exact ht ha (hw.zip hw) (by rw [hlen _ _ hm hm]; exact hB1)
  obtain ⟨b1, b2, b3⟩ := dot_exact ht hb (hw.zip hx) (by rw [hlen _ _ hm hm']; exact hB1)
  obtain ⟨c1, c2, c3⟩ := dot_exact ht hc (hx.zip hx) (by rw [hlen _ _ hm' hm']; exact hB1)
  rw [hlen _ _ hm hm] at a2
  rw [hlen _ _ hm hm'] at b2
  rw [hlen _ _ hm' hm'] at c2
  have fit : ∀ y : K, Digits (2 * t) y → |y| ≤ 4 * m * L ^ 2 → b64 y = y := fun y hy hb =>
    b64_digits (2 * t) (by omega) y hy ((mul_le_mul_of_nonneg_right hb hpow.le).trans hB)
  have e1 : b64 (2 * b) = 2 * b := fit _ b3.two (by rw [abs_mul, abs_of_pos (by norm_num : (0 : K) < 2)]; linarith)
  have e2 : b64 (a - 2 * b) = a - 2 * b := fit _ (a3.sub b3.two) (by
    have := abs_sub a (2 * b)
    rw [abs_mul, abs_of_pos (by norm_num : (0 : K) < 2)] at this
    linarith)
  have e3 : b64 (a - 2 * b + c) = a - 2 * b + c := fit _ ((a3.sub b3.two).add c3) (by
    have h1 := abs_sub a (2 * b)
    rw [abs_mul, abs_of_pos (by norm_num : (0 : K) < 2)] at h1
    have h2 := abs_add_le (a - 2 * b) c
    linarith)
  have hS : a - 2 * b + c = pairSum (fun a b => (a - b) ^ 2) w x := by
    rw [a1, b1, c1, ← Eucl.sq_expand w x (by rw [hm, hm'])]
    simp only [List.zip, List.map_zipWith]
  unfold expand
  rw [e1, e2, e3, hS]
  simp only
  split
  · rename_i hlt
    by_contra hne
    have hnn := pairSum_diff_nonneg w x
    have h1 := digits_pos (2 * t) _ (pairSum_digits (fun y hy => (hw y hy).1) fun y hy => (hx y hy).1) (lt_of_le_of_ne hnn hne)
    have h2 : (1 : K) / 2 ^ 48 ≤ 1 / 2 ^ (2 * t) := by
      apply one_div_le_one_div_of_le hpow
      exact pow_le_pow_right₀ (by norm_num) (by omega)
    have := eps_le (K := K)
    linarith
  · rfl

/-- Short data meet the requirements of the columns, exactly. -/
theorem short_steps (m : Nat) (hm : 0 < m) (s q : List K) (t : Nat) (ht : t ≤ 24) (L : K) (hs : Short t L s) (hq : Short t L q)
    (hmq : m ≤ q.length) (hB : 4 * m * L ^ 2 * 2 ^ (2 * t) ≤ 2 ^ 53) :
    Steps b64 (fun v w x => v = pairSum (fun a b => (a - b) ^ 2) w x) (fun _ v w x => v = pairSum (fun a b => (a - b) ^ 2) w x) m s q := by
  have hqt : Short t L (q.take m) := fun x hx => hq x (List.mem_of_mem_take hx)
  have hst : ∀ j, Short t L ((s.drop j).take m) := fun j x hx => hs x (List.mem_of_mem_drop (List.mem_of_mem_take hx))
  have hpow : (0 : K) < 2 ^ (2 * t) := by positivity
  have hB1 : 4 * L ^ 2 * 2 ^ (2 * t) ≤ (2 : K) ^ 53 := by
    refine le_trans ?_ hB
    have : (1 : K) ≤ m := by exact_mod_cast hm
    have h0 : 0 ≤ L ^ 2 := sq_nonneg L
    gcongr
    linarith
  have hBounded : ∀ l : List K, Short t L l → Bounded (fun x => x) L l := fun l h x hx => ⟨rfl, (h x hx).2⟩
  refine ⟨?_, ?_, ?_, ?_, ?_⟩
  · intro win hwl hwin a b c ha hb hc
    exact expand_exact ht hwl (by rw [List.length_take]; omega) (fun x hx => hs x (hwin x hx)) hqt hB ha hb hc
  · intro j hj win hwin a b c ha hb hc
    refine expand_exact ht (mem_windows_length hwin) (by rw [List.length_take, List.length_drop]; omega) ?_ (hst j) hB ha hb hc
    intro x hx
    obtain ⟨i, -, rfl⟩ := List.mem_map.1 hwin
    exact hq x (List.mem_of_mem_drop (List.mem_of_mem_take hx))
  · intro n j i v hj hi h
    rw [h, pairSum_comm _ (fun a b => by ring)]
  · intro n j v hj h
    exact h
  · intro n j i v hj hi h
    rw [Eucl.pair_sqd m s q i j (by omega) (by omega)] at h
    rw [Eucl.pair_sqd m s q (i + 1) (j + 1) (by omega) (by omega), sqd_step]
    have p1 := hs _ (seqOf_mem s j (by omega))
    have p2 := hq _ (seqOf_mem q i (by omega))
    have p3 := hs _ (seqOf_mem s (j + m) (by omega))
    have p4 := hq _ (seqOf_mem q (i + m) (by omega))
    rw [diff2_exact ht p1 p2 hB1, diff2_exact ht p3 p4 hB1, h]
    have hdig : ∀ i j, i + m ≤ q.length → j + m ≤ s.length → Digits (2 * t) (sqd m (seqOf s) (seqOf q) i j) := by
      intro i j hi hj
      rw [← Eucl.pair_sqd m s q i j hj hi]
      exact pairSum_digits (fun y hy => (hs y (List.mem_of_mem_drop (List.mem_of_mem_take hy))).1)
        (fun y hy => (hq y (List.mem_of_mem_drop (List.mem_of_mem_take hy))).1)
    have hle : ∀ i j, i + m ≤ q.length → j + m ≤ s.length → sqd m (seqOf s) (seqOf q) i j ≤ 4 * m * L ^ 2 := fun i j hi hj =>
      (sqd_bound m s q i j L (hBounded s hs) (hBounded q hq) hi hj).trans (le_of_eq (by ring))
    have fit : ∀ y : K, Digits (2 * t) y → 0 ≤ y → y ≤ 4 * m * L ^ 2 → b64 y = y := fun y hy h0 hb =>
      b64_digits (2 * t) (by omega) y hy ((mul_le_mul_of_nonneg_right (by rw [abs_of_nonneg h0]; exact hb) hpow.le).trans hB)
    have sqdig : ∀ x y : K, Digits t x → Digits t y → Digits (2 * t) ((x - y) ^ 2) := fun x y hx hy => by rw [sq]; exact (hx.sub hy).mul (hx.sub hy)
    have e1 := fit (sqd m (seqOf s) (seqOf q) i j - (seqOf s j - seqOf q i) ^ 2)
      ((hdig i j (by omega) (by omega)).sub (sqdig _ _ p1.1 p2.1)) (sub_nonneg.2 (sqd_first_le m hm _ _ i j))
      (by have := hle i j (by omega) (by omega); have := sq_nonneg (seqOf s j - seqOf q i); linarith)
    rw [e1, ← sqd_step]
    exact fit _ (hdig (i + 1) (j + 1) (by omega) (by omega)) (Eucl.sqd_nonneg _ _ _ _ _) (hle (i + 1) (j + 1) (by omega) (by omega))

/-- The running sums along a diagonal are exact. -/
theorem pre_exact {t : Nat} (ht : t ≤ 24) {L : K} (q s : List K) (i0 j0 n : Nat) (hq : i0 + n ≤ q.length) (hs : j0 + n ≤ s.length)
    (sq : Short t L q) (ss : Short t L s) (hB : 4 * n * L ^ 2 * 2 ^ (2 * t) ≤ 2 ^ 53) (k : Nat) (hk : k ≤ n) :
    pre b64 (squares b64 ((q.drop i0).take n) ((s.drop j0).take n)) k = sqd k (seqOf s) (seqOf q) i0 j0 ∧
      Digits (2 * t) (sqd k (seqOf s) (seqOf q) i0 j0) := by
  have hBounded : ∀ l : List K, Short t L l → Bounded (fun x => x) L l := fun l h x hx => ⟨rfl, (h x hx).2⟩
  have hpow : (0 : K) < 2 ^ (2 * t) := by positivity
  set l := squares b64 ((q.drop i0).take n) ((s.drop j0).take n) with hl
  have hlen : l.length = n := by rw [hl, squares]; simp; omega
  induction k with
  | zero => exact ⟨by rw [pre_zero]; simp [sqd], by simp only [sqd, Finset.range_zero, Finset.sum_empty]; exact Digits.zero⟩
  | succ k ih =>
    obtain ⟨h1, h2⟩ := ih (by omega)
    have hB1 : 4 * L ^ 2 * 2 ^ (2 * t) ≤ (2 : K) ^ 53 := by
      refine le_trans ?_ hB
      have : (1 : K) ≤ n := by exact_mod_cast (by omega : 1 ≤ n)
      have h0 : 0 ≤ L ^ 2 := sq_nonneg L
      gcongr
      linarith
    have p1 := sq _ (seqOf_mem q (i0 + k) (by omega))
    have p2 := ss _ (seqOf_mem s (j0 + k) (by omega))
    have hel := squares_getElem (rnd := b64) q s i0 j0 n k (by omega) hq hs (by rw [← hl, hlen]; omega)
    have he : l[k]'(by omega) = diff2 b64 (seqOf q (i0 + k)) (seqOf s (j0 + k)) := hel
    have hsum : sqd (k + 1) (seqOf s) (seqOf q) i0 j0 = sqd k (seqOf s) (seqOf q) i0 j0 + (seqOf q (i0 + k) - seqOf s (j0 + k)) ^ 2 := by
      unfold sqd; rw [Finset.sum_range_succ]; ring
    have hdig : Digits (2 * t) (sqd (k + 1) (seqOf s) (seqOf q) i0 j0) := by
      rw [hsum, _root_.sq (seqOf q (i0 + k) - seqOf s (j0 + k))]
      exact h2.add ((p1.1.sub p2.1).mul (p1.1.sub p2.1))
    refine ⟨?_, hdig⟩
    rw [pre_succ l k (by omega), he, diff2_exact ht p1 p2 hB1, h1, ← hsum]
    refine b64_digits (2 * t) (by omega) _ hdig ?_
    rw [abs_of_nonneg (Eucl.sqd_nonneg _ _ _ _ _)]
    have hle := sqd_bound (k + 1) s q i0 j0 L (hBounded s ss) (hBounded q sq) (by omega) (by omega)
    have hkn : ((k + 1 : Nat) : K) ≤ n := by exact_mod_cast hk
    have h0 : 0 ≤ L ^ 2 := sq_nonneg L
    refine le_trans (mul_le_mul_of_nonneg_right hle hpow.le) (le_trans ?_ hB)
    have : ((k + 1 : Nat) : K) * (4 * L ^ 2) ≤ 4 * n * L ^ 2 := by nlinarith
    exact mul_le_mul_of_nonneg_right this hpow.le

end Rounded

variable {K : Type} [Field K] [LinearOrder K] [IsStrictOrderedRing K] [FloorRing K]

/-- **C83** (partial), columns: if all data have at most 24 binary digits after the point and the windows and subsequence length are
such that `4 m L² 4ᵗ ≤ 2⁵³` (`L` the largest absolute value), then in `float64` every value returned by `calc_column` is the correctly
rounded Euclidean distance of the pair, after any valid and `Safe` calls and in whatever order NumPy adds. -/
theorem C83_column_partial (dots : Rounded.Dots K) (hdots : dots.Ok b64) (mem : Nat → List (Fl K)) (hmem : ∀ n, (mem n).length = n) (sq : K → K)
    (m N : Nat) (M : Option Nat) (g0 : ColCache K) (st0 : GSt K) (hm : 0 < m) (h0 : Eucl.Fresh mem m g0 N M st0) (ops : List (GOp K)) (c : Nat)
    (t : Nat) (ht : t ≤ 24) (L : K) (hB : 4 * m * L ^ 2 * 4 ^ t ≤ 2 ^ 53)
    (hok : st0.All N M (fun st op => st.Valid m M op ∧ st.Safe op ∧ ∀ x ∈ st.s ++ st.q, (∃ k : ℤ, x = (k : K) / 2 ^ t) ∧ |x| ≤ L) (ops ++ [.column c])) :
    ∃ g g' s q, s = (st0.run N M ops).s ∧ q = (st0.run N M ops).q ∧ Rounded.run b64 dots mem sq g0 ops = .ok g ∧
      Rounded.calcColumn b64 dots mem sq g c = .ok (g', (List.range (q.length + 1 - m)).map fun i =>
        .fin (b64 (sq (sqd m (seqOf s) (seqOf q) i c)))) := by
  have hc := (GSt.All.split hok).2.1.1
  have hB' : 4 * m * L ^ 2 * 2 ^ (2 * t) ≤ 2 ^ 53 := by rw [pow_mul]; norm_num; exact_mod_cast hB
  obtain ⟨g, g', vs, h1, h2, h3, h4⟩ := Rounded.column_after (sq := sq) (b64_isRounding (K := K)).idem hmem hdots m N M g0 st0 hm h0 ops c
    (Eucl.GSt.All.mono (fun st op h => ⟨h.1, h.2.1, fun c' hc' => Rounded.short_steps m hm st.s st.q t ht L
      (fun x hx => h.2.2 x (List.mem_append_left _ hx)) (fun x hx => h.2.2 x (List.mem_append_right _ hx)) (by
        have := h.1; rw [hc'] at this; exact this.2) hB'⟩) st0 _ hok)
  refine ⟨g, g', _, _, rfl, rfl, h1, ?_⟩
  rw [h2]
  congr 2
  apply List.ext_getElem?
  intro i
  by_cases hi : i + m ≤ (st0.run N M ops).q.length
  · obtain ⟨v, h5, h6⟩ := h4 i hi
    rw [Eucl.pair_sqd m _ _ i c hc.1 hi] at h6
    rw [h5, List.getElem?_map, List.getElem?_range (by omega), Option.map_some, h6, Fl.sqrtF_fin _ _ (Eucl.sqd_nonneg _ _ _ _ _)]
    rfl
  · have := hc.2
    rw [List.getElem?_eq_none (by rw [h3]; omega), List.getElem?_eq_none (by simp; omega)]

/-- **C83** (partial), diagonals: the same, with the length of the series window in the place of the length of the subsequences. -/
theorem C83_diagonal_partial (dots : Rounded.Dots K) (mem : Nat → List (Fl K)) (hmem : ∀ n, (mem n).length = n) (sq : K → K)
    (m N : Nat) (M : Option Nat) (g0 g : ColCache K) (st0 : GSt K) (hm : 0 < m) (h0 : Eucl.Fresh mem m g0 N M st0) (ops : List (GOp K))
    (hrun : Rounded.run b64 dots mem sq g0 ops = .ok g) (d : Int) (hd : (st0.run N M ops).Valid m M (.diag d))
    (t : Nat) (ht : t ≤ 24) (L : K) (hB : 4 * ((st0.run N M ops).s.length : K) * L ^ 2 * 4 ^ t ≤ 2 ^ 53)
    (hdata : ∀ x ∈ (st0.run N M ops).s ++ (st0.run N M ops).q, (∃ k : ℤ, x = (k : K) / 2 ^ t) ∧ |x| ≤ L) :
    ∃ s q : List K, s = (st0.run N M ops).s ∧ q = (st0.run N M ops).q ∧
      Rounded.calcDiagonal b64 sq g d = .ok ((List.range (diagEntries m q.length s.length d)).map fun k =>
        .fin (b64 (sq (sqd m (seqOf s) (seqOf q) ((-d).toNat + k) (d.toNat + k))))) := by
  have hB' : 4 * ((st0.run N M ops).s.length : K) * L ^ 2 * 2 ^ (2 * t) ≤ 2 ^ 53 := by rw [pow_mul]; norm_num; exact_mod_cast hB
  obtain ⟨n, hn, hmn, hent, hval⟩ := Rounded.calcDiagonal_values (rnd := b64) (sq := sq) (b64_isRounding (K := K)).idem g m N M _ d
    (Rounded.run_data g0 g m N M st0 ops (h0.data hmem hm).1 hrun) hd
  obtain ⟨v1, v2, v3, v4⟩ := hd
  refine ⟨_, _, rfl, rfl, ?_⟩
  generalize st0.run N M ops = st at *
  rw [hval]
  congr 1
  apply List.map_congr_left
  intro k hk
  have hk := List.mem_range.mp hk
  have hq : (-d).toNat + n ≤ st.q.length := by omega
  have hs : d.toNat + n ≤ st.s.length := by omega
  have hBn : 4 * (n : K) * L ^ 2 * 2 ^ (2 * t) ≤ 2 ^ 53 := by
    refine le_trans ?_ hB'
    have : (n : K) ≤ st.s.length := by exact_mod_cast (by omega : n ≤ st.s.length)
    have h0 : 0 ≤ L ^ 2 := sq_nonneg L
    gcongr
  have hsq : Rounded.Short t L st.q := fun x hx => hdata x (List.mem_append_right _ hx)
  have hss : Rounded.Short t L st.s := fun x hx => hdata x (List.mem_append_left _ hx)
  have e1 := Rounded.pre_exact ht st.q st.s (-d).toNat d.toNat n hq hs hsq hss hBn (k + m) (by omega)
  have e2 := Rounded.pre_exact ht st.q st.s (-d).toNat d.toNat n hq hs hsq hss hBn k (by omega)
  have hsum : sqd (k + m) (seqOf st.s) (seqOf st.q) (-d).toNat d.toNat - sqd k (seqOf st.s) (seqOf st.q) (-d).toNat d.toNat =
      sqd m (seqOf st.s) (seqOf st.q) ((-d).toNat + k) (d.toNat + k) := by
    unfold sqd
    rw [Finset.sum_range_add, add_sub_cancel_left]
    exact Finset.sum_congr rfl fun x _ => by rw [Nat.add_assoc, Nat.add_assoc]
  have hdig := e1.2.sub e2.2
  rw [e1.1, e2.1, hsum]
  rw [hsum] at hdig
  have hfit : b64 (sqd m (seqOf st.s) (seqOf st.q) ((-d).toNat + k) (d.toNat + k)) = sqd m (seqOf st.s) (seqOf st.q) ((-d).toNat + k) (d.toNat + k) := by
    refine Rounded.b64_digits (2 * t) (by omega) _ hdig ?_
    rw [abs_of_nonneg (Eucl.sqd_nonneg _ _ _ _ _)]
    have hle := Rounded.sqd_bound (rnd := fun x => x) m st.s st.q ((-d).toNat + k) (d.toNat + k) L (fun x hx => ⟨rfl, (hss x hx).2⟩)
      (fun x hx => ⟨rfl, (hsq x hx).2⟩) (by omega) (by omega)
    have hkn : (m : K) ≤ n := by exact_mod_cast hmn
    have h0 : 0 ≤ L ^ 2 := sq_nonneg L
    refine le_trans (mul_le_mul_of_nonneg_right hle (by positivity)) (le_trans ?_ hBn)
    have : (m : K) * (4 * L ^ 2) ≤ 4 * n * L ^ 2 := by nlinarith
    exact mul_le_mul_of_nonneg_right this (by positivity)
  rw [hfit, Fl.sqrtF_fin _ _ (Eucl.sqd_nonneg _ _ _ _ _)]
  rfl

/-- A streaming run on data with two binary digits meets the conditions of both theorems. -/
example : ∃ (g0 : ColCache ℚ) (st0 : GSt ℚ), Eucl.Fresh zeroMem 2 g0 6 (some 3) st0 ∧ (Rounded.Dots.left b64).Ok (b64 (K := ℚ)) ∧
    (4 * (2 : Nat) * 3 ^ 2 * 4 ^ 2 ≤ (2 ^ 53 : ℚ)) ∧ (4 * (6 : Nat) * 3 ^ 2 * 4 ^ 2 ≤ (2 ^ 53 : ℚ)) ∧
    st0.All 6 (some 3) (fun st op => st.Valid 2 (some 3) op ∧ st.Safe op ∧ ∀ x ∈ st.s ++ st.q, (∃ k : ℤ, x = (k : ℚ) / 2 ^ 2) ∧ |x| ≤ 3)
      ([.query [1, 2, 3], .series [1, 3 / 2, 0], .column 0, .diag 0, .column 1, .series [5 / 4]] ++ [.column 2]) := by
  refine ⟨_, _, Eucl.Fresh.streaming 1 6 (some 3) le_rfl (by norm_num) (by norm_num) (by simp), Rounded.left_ok _, by norm_num, by norm_num, ?_⟩
  simp only [GSt.All, List.cons_append, List.nil_append, GSt.step, GSt.Valid, GSt.Safe, lastN, List.length_cons, List.length_nil]
  have hb : ∀ x ∈ ([0, 1, 2, 3, 3 / 2, 5 / 4] : List ℚ), (∃ k : ℤ, x = (k : ℚ) / 2 ^ 2) ∧ |x| ≤ 3 := by
    intro x hx
    refine ⟨⟨(4 * x).num, ?_⟩, ?_⟩ <;> revert x <;> decide +kernel
  have key : ∀ l : List ℚ, (∀ x ∈ l, x ∈ ([0, 1, 2, 3, 3 / 2, 5 / 4] : List ℚ)) → ∀ x ∈ l, (∃ k : ℤ, x = (k : ℚ) / 2 ^ 2) ∧ |x| ≤ 3 :=
    fun l h x hx => hb x (h x hx)
  refine ⟨⟨by simp, trivial, key _ ?_⟩, ⟨trivial, trivial, key _ ?_⟩, ⟨by simp, by simp, key _ ?_⟩, ⟨by simp, trivial, key _ ?_⟩,
    ⟨by simp, ?_, key _ ?_⟩, ⟨trivial, trivial, key _ ?_⟩, ⟨by simp, ?_, key _ ?_⟩, trivial⟩ <;> simp

/-! ### Where it fails -/

/-- The series 100000000, 1, 1 and the query 0, 0, 0; subsequences of length 1. -/
def outlier : Except PyErr (ColCache ℚ) :=
  Eucl.prepare zeroMem 1 ([100000000, 1, 1].map .fin) (some ([0, 0, 0].map .fin))

/-- **C83** fails for these whole numbers of nine digits, although every value and every squared distance is a float: on the main diagonal
the outlier in front makes the distances of all later pairs 0, where the distance is 1. The calculation by columns returns 1 for
the same pair. The values are shown squared. -/
theorem C83_outlier_wrong :
    (outlier.bind fun g => Rounded.calcDiagonal b64 (fun x => x) g 0) = .ok [.fin (10 ^ 16), .fin 0, .fin 0] ∧
    (outlier.bind fun g => (Rounded.calcColumn b64 (Rounded.Dots.left b64) zeroMem (fun x => x) g 1).map Prod.snd) = .ok [.fin 1, .fin 1, .fin 1] ∧
    sqd 1 (seqOf [100000000, 1, 1]) (seqOf [0, 0, 0]) 1 1 = (1 : ℚ) ∧ sqd 1 (seqOf [100000000, 1, 1]) (seqOf [0, 0, 0]) 2 2 = (1 : ℚ) := by
  decide +kernel

end Verif
