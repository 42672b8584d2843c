import Verif.Model.SmallParts
import Verif.Lemmas.Ranges
import Verif.Lemmas.Slices
import Verif.Props.Anytime
import Verif.Props.Diagonals
import Mathlib.Algebra.Order.Ring.Rat

/-!
# C64 and C65: sliding minimum and maximum, affected subsequences
-/

namespace Verif
variable {K : Type} [LinearOrder K]

theorem foldl_pick_min (xs : List (Fl K)) (x : Fl K) : xs.foldl min x ∈ x :: xs ∧ ∀ y ∈ x :: xs, xs.foldl min x ≤ y := by
  induction xs generalizing x with
  | nil => simp
  | cons z xs ih =>
    obtain ⟨h1, h2⟩ := ih (min x z)
    rw [List.foldl_cons]
    constructor
    · rcases List.mem_cons.mp h1 with h | h
      · rw [h]
        rcases min_choice x z with h' | h' <;> rw [h'] <;> simp
      · simp [h]
    · intro y hy
      have h3 := h2 (min x z) (by simp)
      rcases List.mem_cons.mp hy with rfl | hy
      · exact h3.trans (min_le_left _ _)
      rcases List.mem_cons.mp hy with rfl | hy
      · exact h3.trans (min_le_right _ _)
      · exact h2 y (by simp [hy])

theorem foldl_pick_max (xs : List (Fl K)) (x : Fl K) : xs.foldl max x ∈ x :: xs ∧ ∀ y ∈ x :: xs, y ≤ xs.foldl max x := by
  induction xs generalizing x with
  | nil => simp
  | cons z xs ih =>
    obtain ⟨h1, h2⟩ := ih (max x z)
    rw [List.foldl_cons]
    constructor
    · rcases List.mem_cons.mp h1 with h | h
      · rw [h]
        rcases max_choice x z with h' | h' <;> rw [h'] <;> simp
      · simp [h]
    · intro y hy
      have h3 := h2 (max x z) (by simp)
      rcases List.mem_cons.mp hy with rfl | hy
      · exact (le_max_left _ _).trans h3
      rcases List.mem_cons.mp hy with rfl | hy
      · exact (le_max_right _ _).trans h3
      · exact h2 y (by simp [hy])

/-- The sliding values, position by position. -/
theorem sliding_ok (pick : Fl K → Fl K → Fl K) (array : List (Fl K)) (w : Nat) (hw : 0 < w) :
    ∃ r, (do return pyFrom (← rolling pick array w) ((w : Int) - 1)) = (.ok r : Except PyErr (List (Fl K))) ∧ r.length = array.length + 1 - w ∧
      ∀ i, i + w ≤ array.length → r[i]? = some (rollOne pick ((array.drop i).take w)) := by
  refine ⟨((List.range array.length).map fun i => if w ≤ i + 1 then rollOne pick ((array.drop (i + 1 - w)).take w) else .nan).drop (w - 1), ?_, ?_, ?_⟩
  · unfold rolling
    rw [if_neg (by omega), show ((w : Int) - 1) = ((w - 1 : Nat) : Int) by omega]
    simp only [bind, Except.bind, pure, Except.pure, pyFrom_nat, Int.toNat_natCast]
  · simp only [List.length_drop, List.length_map, List.length_range]; omega
  · intro i hi
    rw [List.getElem?_drop, List.getElem?_map, List.getElem?_range (by omega)]
    simp only [Option.map_some, Option.some.injEq]
    rw [if_pos (by omega), show w - 1 + i + 1 - w = i by omega]

/-- **C64.** `sliding_min(array, w)` for `w ≥ 1`: one value per window of `w` consecutive values; it is the smallest value of the window if all its
values are finite, else NaN. -/
theorem C64_sliding_min (array : List (Fl K)) (w : Nat) (hw : 0 < w) :
    ∃ r, slidingMin array w = .ok r ∧ r.length = array.length + 1 - w ∧ ∀ i, i + w ≤ array.length → ∃ v, r[i]? = some v ∧
      ((∃ k < w, ∃ x, array[i + k]? = some x ∧ x.isFinite = false) → v = .nan) ∧
      ((∀ k < w, ∀ x, array[i + k]? = some x → x.isFinite = true) →
        (∃ k < w, array[i + k]? = some v) ∧ ∀ k < w, ∀ x, array[i + k]? = some x → v ≤ x) := by
  obtain ⟨r, h1, h2, h3⟩ := sliding_ok min array w hw
  refine ⟨r, h1, h2, fun i hi => ⟨_, h3 i hi, ?_, ?_⟩⟩
  all_goals
    have hlen : ((array.drop i).take w).length = w := by simp; omega
    have hget : ∀ k < w, ((array.drop i).take w)[k]? = array[i + k]? := by
      intro k hk
      rw [List.getElem?_take, if_pos hk, List.getElem?_drop]
    generalize (array.drop i).take w = l at hlen hget
    cases l with
    | nil => simp at hlen; omega
    | cons y ys => ?_
  · rintro ⟨k, hk, x, hx, hf⟩
    unfold rollOne
    dsimp only
    rw [if_neg]
    rw [Bool.not_eq_true, List.all_eq_false]
    rw [← hget k hk] at hx
    exact ⟨x, List.mem_of_getElem? hx, by simp [hf]⟩
  · intro hall
    have hfin : (y :: ys).all Fl.isFinite = true := by
      rw [List.all_eq_true]
      intro x hx
      obtain ⟨k, hk⟩ := List.mem_iff_getElem?.mp hx
      have hkw : k < w := by rw [← hlen]; exact (List.getElem?_eq_some_iff.mp hk).1
      exact hall k hkw x (by rw [← hget k hkw]; exact hk)
    unfold rollOne
    dsimp only
    rw [if_pos hfin]
    obtain ⟨h4, h5⟩ := foldl_pick_min ys y
    obtain ⟨k, hk⟩ := List.mem_iff_getElem?.mp h4
    have hkw : k < w := by rw [← hlen]; exact (List.getElem?_eq_some_iff.mp hk).1
    refine ⟨⟨k, hkw, by rw [← hget k hkw]; exact hk⟩, fun k hk x hx => h5 x ?_⟩
    rw [← hget k hk] at hx
    exact List.mem_of_getElem? hx

example := C64_sliding_min [.fin (3 : ℚ), .fin 1, .fin 4, .pinf, .fin 5, .fin 9] 2 (by omega)

/-- **C64** for `sliding_max`. -/
theorem C64_sliding_max (array : List (Fl K)) (w : Nat) (hw : 0 < w) :
    ∃ r, slidingMax array w = .ok r ∧ r.length = array.length + 1 - w ∧ ∀ i, i + w ≤ array.length → ∃ v, r[i]? = some v ∧
      ((∃ k < w, ∃ x, array[i + k]? = some x ∧ x.isFinite = false) → v = .nan) ∧
      ((∀ k < w, ∀ x, array[i + k]? = some x → x.isFinite = true) →
        (∃ k < w, array[i + k]? = some v) ∧ ∀ k < w, ∀ x, array[i + k]? = some x → x ≤ v) := by
  obtain ⟨r, h1, h2, h3⟩ := sliding_ok max array w hw
  refine ⟨r, h1, h2, fun i hi => ⟨_, h3 i hi, ?_, ?_⟩⟩
  all_goals
    have hlen : ((array.drop i).take w).length = w := by simp; omega
    have hget : ∀ k < w, ((array.drop i).take w)[k]? = array[i + k]? := by
      intro k hk
      rw [List.getElem?_take, if_pos hk, List.getElem?_drop]
    generalize (array.drop i).take w = l at hlen hget
    cases l with
    | nil => simp at hlen; omega
    | cons y ys => ?_
  · rintro ⟨k, hk, x, hx, hf⟩
    unfold rollOne
    dsimp only
    rw [if_neg]
    rw [Bool.not_eq_true, List.all_eq_false]
    rw [← hget k hk] at hx
    exact ⟨x, List.mem_of_getElem? hx, by simp [hf]⟩
  · intro hall
    have hfin : (y :: ys).all Fl.isFinite = true := by
      rw [List.all_eq_true]
      intro x hx
      obtain ⟨k, hk⟩ := List.mem_iff_getElem?.mp hx
      have hkw : k < w := by rw [← hlen]; exact (List.getElem?_eq_some_iff.mp hk).1
      exact hall k hkw x (by rw [← hget k hkw]; exact hk)
    unfold rollOne
    dsimp only
    rw [if_pos hfin]
    obtain ⟨h4, h5⟩ := foldl_pick_max ys y
    obtain ⟨k, hk⟩ := List.mem_iff_getElem?.mp h4
    have hkw : k < w := by rw [← hlen]; exact (List.getElem?_eq_some_iff.mp hk).1
    refine ⟨⟨k, hkw, by rw [← hget k hkw]; exact hk⟩, fun k hk x hx => h5 x ?_⟩
    rw [← hget k hk] at hx
    exact List.mem_of_getElem? hx

example := C64_sliding_max [.fin (3 : ℚ), .fin 1, .fin 4, .pinf, .fin 5, .fin 9] 2 (by omega)

/-- Negative window sizes are rejected. -/
theorem C64_negative_window (array : List (Fl K)) (w : Int) (h : w < 0) :
    slidingMin array w = .error .valueError ∧ slidingMax array w = .error .valueError := by
  unfold slidingMin slidingMax rolling
  simp only [if_pos h]
  exact ⟨rfl, rfl⟩

example := C64_negative_window [.fin (3 : ℚ), .fin 1] (-1) (by omega)

example : slidingMin [.fin (3 : ℚ), .fin 1, .fin 4, .pinf, .fin 5, .fin 9] 2 = .ok [.fin 1, .fin 1, .nan, .nan, .fin 5] := by decide +kernel
example : slidingMax [.fin (3 : ℚ), .fin 1, .fin 4, .nan, .fin 5, .fin 9] 3 = .ok [.fin 4, .nan, .nan, .nan] := by decide +kernel
example : slidingMax [.fin (3 : ℚ)] 2 = .ok [] := by decide +kernel

/-- **C06** for `diag_indices_of`: the cells of the array on the diagonal; arrays that are not 2-D are rejected. -/
theorem C06_of_array (shape : List Nat) (d : Int) :
    (shape.length ≠ 2 → diagIndicesOf shape d = .error .runtimeError) ∧
    ∀ h w, shape = [h, w] → ∃ r, diagIndicesOf shape d = .ok r ∧ r.1.length = r.2.length ∧
      ∀ i j, (i, j) ∈ r.1.zip r.2 ↔ 0 ≤ i ∧ i < h ∧ 0 ≤ j ∧ j < w ∧ j - i = d := by
  constructor
  · intro h
    unfold diagIndicesOf
    split
    · simp at h
    · rfl
  · rintro h w rfl
    exact ⟨_, rfl, by rw [(C06_lengths h w d).1, (C06_lengths h w d).2.1], C06_cells h w d⟩

/-- **C08** for `cut_indices_of` with its guard. -/
theorem C08_of_array (shape : List Nat) (cut : Int) :
    (shape.length ≠ 2 → cutIndicesOf shape cut = .error .runtimeError) ∧
    ∀ h w, shape = [h, w] → ∃ r, cutIndicesOf shape cut = .ok r ∧
      ∀ i j, (i, j) ∈ r.1.zip r.2 ↔ 0 ≤ i ∧ i < h ∧ 0 ≤ j ∧ j < w ∧ i + j = cut := by
  constructor
  · intro h
    unfold cutIndicesOf
    split
    · simp at h
    · rfl
  · rintro h w rfl
    exact ⟨_, rfl, C08_cells h w cut⟩

example : diagIndicesOf [3, 4] 1 = .ok ([0, 1, 2], [1, 2, 3]) ∧ diagIndicesOf [7] 0 = .error .runtimeError ∧
    cutIndicesOf [3, 4] 1 = .ok ([1, 0], [0, 1]) ∧ cutIndicesOf [2, 2, 2] 1 = .error .runtimeError := by decide +kernel

/-! ### C65 -/

/-- What `_find_invalid_subseq_idxs` returns: for every dimension that has invalid points, everything from 0 up to a bound. -/
theorem findInvalid_ok (m lo hi : Int) (dims : Nat) (invalid : List (Nat × Int)) (hd : ∀ x ∈ invalid, x.1 < dims) :
    ∃ r, findInvalidSubseqIdxs invalid dims m lo hi = .ok r ∧ r.length = dims ∧ ∀ d < dims, ∃ s, r[d]? = some s ∧ s.Nodup ∧
      ∀ i, i ∈ s ↔ 0 ≤ i ∧ ∃ p, (d, p) ∈ invalid ∧ (i < lo ∨ i < p - m + 1 ∨ (i < p + m ∧ i < hi)) := by
  have key : ∀ (rest done : List (Nat × Int)) (sets : List (List Int)), (∀ x ∈ rest, x.1 < dims) → sets.length = dims →
      (∀ d < dims, ∃ s, sets[d]? = some s ∧ s.Nodup ∧
        ∀ i, i ∈ s ↔ 0 ≤ i ∧ ∃ p, (d, p) ∈ done ∧ (i < lo ∨ i < p - m + 1 ∨ (i < p + m ∧ i < hi))) →
      ∃ r, rest.foldlM (addInvalid m lo hi) sets = (.ok r : Except PyErr _) ∧ r.length = dims ∧ ∀ d < dims, ∃ s, r[d]? = some s ∧ s.Nodup ∧
        ∀ i, i ∈ s ↔ 0 ≤ i ∧ ∃ p, (d, p) ∈ done ++ rest ∧ (i < lo ∨ i < p - m + 1 ∨ (i < p + m ∧ i < hi)) := by
    intro rest
    induction rest with
    | nil => intro done sets _ hl h; exact ⟨sets, rfl, hl, by simpa using h⟩
    | cons x rest ih =>
      intro done sets hx hl h
      obtain ⟨s, h1, h2, h3⟩ := h x.1 (hx x (by simp))
      have hadd : addInvalid m lo hi sets x = .ok (sets.set x.1 (s ++ (pyRange 0 (max lo (max (x.2 - m + 1) (min (x.2 + m) hi)))).filter (fun i => decide (i ∉ s)))) := by
        unfold addInvalid; rw [h1]
      obtain ⟨r, r1, r2, r3⟩ := ih (done ++ [x]) (sets.set x.1 (s ++ (pyRange 0 (max lo (max (x.2 - m + 1) (min (x.2 + m) hi)))).filter (fun i => decide (i ∉ s)))) (fun y hy => hx y (by simp [hy])) (by rw [List.length_set]; exact hl) (by
        intro d hdd
        by_cases he : x.1 = d
        · subst he
          have hself : x.1 < sets.length := by omega
          refine ⟨_, by rw [List.getElem?_set_self hself], ?_, fun i => ?_⟩
          · rw [List.nodup_append]
            refine ⟨h2, (pyRange_nodup _ _).filter _, fun a ha b hb hab => ?_⟩
            subst hab
            have := (List.mem_filter.mp hb).2
            simp at this
            exact this ha
          · rw [List.mem_append, List.mem_filter, mem_pyRange]
            constructor
            · rintro (g | ⟨g1, -⟩)
              · obtain ⟨g1, p, g2, g3⟩ := (h3 i).mp g
                exact ⟨g1, p, by simp [g2], g3⟩
              · refine ⟨g1.1, x.2, by simp, ?_⟩
                have := g1.2
                omega
            · rintro ⟨g1, p, g2, g3⟩
              by_cases hs : i ∈ s
              · exact .inl hs
              · rcases List.mem_append.mp g2 with g2 | g2
                · exact .inl ((h3 i).mpr ⟨g1, p, g2, g3⟩)
                · rw [List.mem_singleton] at g2
                  have g2 : p = x.2 := by rw [← g2]
                  subst g2
                  refine .inr ⟨⟨g1, ?_⟩, by simpa using hs⟩
                  omega
        · obtain ⟨s', g1, g2, g3⟩ := h d hdd
          refine ⟨s', by rw [List.getElem?_set_ne he]; exact g1, g2, fun i => ?_⟩
          rw [g3]
          refine and_congr_right fun _ => exists_congr fun p => and_congr_left fun _ => ?_
          rw [List.mem_append, List.mem_singleton]
          constructor
          · exact .inl
          · rintro (h' | h')
            · exact h'
            · exact absurd (by rw [← h']) he)
      refine ⟨r, ?_, r2, by simpa using r3⟩
      rw [List.foldlM_cons, hadd]
      exact r1
  obtain ⟨r, r1, r2, r3⟩ := key invalid [] (List.replicate dims []) hd (by simp) (by
    intro d h
    exact ⟨[], by simp [h], List.nodup_nil, by simp⟩)
  exact ⟨r, r1, r2, by simpa using r3⟩

/-- **C65.** `_find_invalid_subseq_idxs`: every subsequence that contains an invalid point and lies in the allowed range is reported, once. Partial:
the converse fails (`C65_reports_too_much`). -/
theorem C65_affected_reported_partial (m lo hi : Int) (dims : Nat) (invalid : List (Nat × Int)) (hd : ∀ x ∈ invalid, x.1 < dims) (hlo : 0 ≤ lo) :
    ∃ r, findInvalidSubseqIdxs invalid dims m lo hi = .ok r ∧ r.length = dims ∧ ∀ d < dims, ∃ s, r[d]? = some s ∧ s.Nodup ∧
      ∀ i p, (d, p) ∈ invalid → i ≤ p → p < i + m → lo ≤ i → i < hi → i ∈ s := by
  obtain ⟨r, r1, r2, r3⟩ := findInvalid_ok m lo hi dims invalid hd
  refine ⟨r, r1, r2, fun d hdd => ?_⟩
  obtain ⟨s, s1, s2, s3⟩ := r3 d hdd
  exact ⟨s, s1, s2, fun i p h1 h2 h3 h4 h5 => (s3 i).mpr ⟨by omega, p, h1, by omega⟩⟩

example := C65_affected_reported_partial 3 2 20 2 [(0, 10), (1, 4), (0, 11)] (by simp) (by omega)

/-- Subsequences without any invalid point are reported whenever the first invalid point is not at the very start: for every
point at `p ≥ m`, the subsequence at 0 is reported although it ends before `p`. -/
theorem C65_reports_too_much (m p : Int) (hp : m ≤ p) (lo hi : Int) :
    ∃ s, findInvalidSubseqIdxs [(0, p)] 1 m lo hi = .ok [s] ∧ 0 ∈ s := by
  obtain ⟨r, r1, r2, r3⟩ := findInvalid_ok m lo hi 1 [(0, p)] (by simp)
  obtain ⟨s, s1, -, s3⟩ := r3 0 (by omega)
  refine ⟨s, ?_, (s3 0).mpr ⟨le_refl _, p, by simp, by omega⟩⟩
  rw [r1]
  match r, r2 with
  | [x], _ => simp at s1; rw [s1]

example := C65_reports_too_much 3 10 (by omega) 0 20

/-- An invalid point at 10, subsequences of 3 points: 8, 9, 10 are affected, 0 to 12 are reported. -/
example : findInvalidSubseqIdxs [(0, 10)] 2 3 0 20 = .ok [pyRange 0 13, []] := by decide +kernel
example : findInvalidSubseqIdxs [(2, 10)] 2 3 0 20 = .error .indexError := by decide +kernel

example := (C06_of_array [3, 4] (-1)).2 3 4 rfl
example := (C08_of_array [3, 4] 2).2 3 4 rfl
example := (C06_of_array [3, 4, 5] (-1)).1 (by decide)

end Verif
