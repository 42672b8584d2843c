import Verif.Model.Insights
import Verif.Lemmas.Float
import Verif.Lemmas.Slices
import Mathlib.Algebra.Order.Group.Defs
import Mathlib.Algebra.Order.Group.Int
import Mathlib.Algebra.Order.Group.Abs

/-!
# C12–C14: `lowest_value_idxs`, `highest_value_idxs`
-/

namespace Verif
variable {K : Type} [LinearOrder K]

/-- positions `i`, `j` are at most `e` apart -/
def Near (e : Nat) (i j : Nat) : Prop := i ≤ j + e ∧ j ≤ i + e

instance (e i j : Nat) : Decidable (Near e i j) := by unfold Near; infer_instance

/-- Number of finite entries left: decreases in each iteration. -/
theorem lowestLoop_spec (e : Nat) (n : Nat) (fuel : Nat) (arr : List (Fl K)) (hne : arr ≠ [])
    (harr : ∀ v ∈ arr, v = .pinf ∨ ∃ x, v = .fin x) (hn : arr.countP (fun v => decide (v ≠ .pinf)) = n) (hf : n ≤ fuel) :
    ∃ is, lowestLoop (e : Int) fuel arr = .ok (some is) ∧
      (∀ i ∈ is, ∃ x, arr[i]? = some (.fin x)) ∧
      is.Pairwise (fun i j => ¬ Near e i j ∧ ∀ x y, arr[i]? = some (.fin x) → arr[j]? = some (.fin y) → x ≤ y) ∧
      (∀ j x, arr[j]? = some (.fin x) → ∃ i ∈ is, ∃ y, Near e i j ∧ arr[i]? = some (.fin y) ∧ y ≤ x) ∧
      is.length ≤ n := by
  induction n using Nat.strong_induction_on generalizing fuel arr with
  | _ n ih =>
  have hnan : Fl.nan ∉ arr := fun h => by rcases harr _ h with h | ⟨x, h⟩ <;> cases h
  obtain ⟨mi, hmi, hlt, _, _, hmin⟩ := npArgmin_spec arr hne
  have hget : pyGet arr (mi : Int) = .ok arr[mi] := by
    unfold pyGet
    have : ¬ (mi : Int) < 0 := by omega
    simp [this, hlt]
  unfold lowestLoop
  simp only [hmi, hget, bind, Except.bind, pure, Except.pure]
  by_cases hp : arr[mi] = Fl.pinf
  · refine ⟨[], by simp [hp], by simp, by simp, ?_, by simp⟩
    intro j x hj
    exfalso
    obtain ⟨hj', hjx⟩ := List.getElem?_eq_some_iff.mp hj
    have := (hmin hnan).1 j hj'
    rw [hp, hjx] at this
    exact absurd this (by simp)
  · obtain ⟨x, hx⟩ : ∃ x, arr[mi] = Fl.fin x := (harr _ (List.getElem_mem hlt)).resolve_left hp
    have hpos : 0 < n := by
      rw [← hn, List.countP_pos_iff]
      exact ⟨_, List.getElem_mem hlt, by simpa using hp⟩
    obtain ⟨fuel, rfl⟩ : ∃ f, fuel = f + 1 := ⟨fuel - 1, by omega⟩
    have hget' : ∀ i, (pyFill arr (max 0 ((mi : Int) - e)) ((mi : Int) + e + 1) .pinf)[i]? =
        if Near e mi i ∧ i < arr.length then some Fl.pinf else arr[i]? := by
      intro i
      rw [pyFill_getElem?]
      have h1 : pyIdx arr.length (max 0 ((mi : Int) - e)) = min (mi - e) arr.length := by
        rw [pyIdx_nonneg _ _ (by omega)]; omega
      have h2 : pyIdx arr.length ((mi : Int) + e + 1) = min (mi + e + 1) arr.length := by
        rw [pyIdx_nonneg _ _ (by omega)]; omega
      rw [h1, h2]
      unfold Near
      by_cases hi : i < arr.length
      · congr 1
        simp only [eq_iff_iff]
        omega
      · rw [if_neg (by omega), if_neg (by omega)]
    generalize harr' : pyFill arr (max 0 ((mi : Int) - e)) ((mi : Int) + e + 1) .pinf = arr' at *
    have hlen : arr'.length = arr.length := by rw [← harr']; simp
    have harr'' : ∀ v ∈ arr', v = .pinf ∨ ∃ x, v = .fin x := by
      intro v hv
      obtain ⟨i, hi, hiv⟩ := List.getElem_of_mem hv
      have := hget' i
      rw [List.getElem?_eq_getElem hi, hiv] at this
      split at this
      · left; simpa using this
      · exact harr v (List.mem_of_getElem? this.symm)
    have hcount : arr'.countP (fun v => decide (v ≠ Fl.pinf)) < n := by
      have hsub : ∀ i : Nat, arr'[i]? ≠ arr[i]? → arr'[i]? = some (Fl.pinf) := by
        intro i hi
        rw [hget' i] at hi ⊢
        split at hi
        · rename_i h; rw [if_pos h]
        · exact absurd rfl hi
      rw [← hn]
      have key : ∀ (l l' : List (Fl K)), l'.length = l.length → (∀ i : Nat, l'[i]? ≠ l[i]? → l'[i]? = some .pinf) →
          l'.countP (fun v => decide (v ≠ .pinf)) ≤ l.countP (fun v => decide (v ≠ .pinf)) ∧
          ((∃ i : Nat, l'[i]? = some .pinf ∧ ∃ x, l[i]? = some (.fin x)) →
            l'.countP (fun v => decide (v ≠ .pinf)) < l.countP (fun v => decide (v ≠ .pinf))) := by
        intro l
        induction l with
        | nil => intro l' h _; have := List.length_eq_zero_iff.mp h; subst this; simp
        | cons a l ih =>
          intro l' h hs
          simp only [ne_eq] at *
          match l', h with
          | b :: l', h =>
            obtain ⟨h1, h2⟩ := ih l' (by simpa using h) (fun i hi => by simpa using hs (i + 1) (by simpa using hi))
            have h0 : b = a ∨ b = .pinf := by
              by_cases hb : b = a
              · exact Or.inl hb
              · exact Or.inr (by simpa using hs 0 (by simpa using hb))
            constructor
            · simp only [List.countP_cons]
              rcases h0 with rfl | rfl
              · omega
              · simp only [ne_eq, not_true_eq_false, decide_false, Bool.false_eq_true, if_false]; omega
            · rintro ⟨i, hi, x, hx⟩
              simp only [List.countP_cons]
              cases i with
              | zero =>
                simp at hi hx
                subst hi; subst hx
                simp only [ne_eq, not_true_eq_false, decide_false, Bool.false_eq_true, if_false, reduceCtorEq, not_false_eq_true, decide_true, if_true]; omega
              | succ i =>
                have := h2 ⟨i, by simpa using hi, x, by simpa using hx⟩
                rcases h0 with rfl | rfl
                · omega
                · simp only [ne_eq, not_true_eq_false, decide_false, Bool.false_eq_true, if_false]; omega
      refine (key arr arr' hlen hsub).2 ⟨mi, ?_, x, by rw [List.getElem?_eq_getElem hlt, hx]⟩
      rw [hget' mi, if_pos ⟨by unfold Near; omega, hlt⟩]
    obtain ⟨is, h1, h2, h3, h4, h5⟩ := ih _ hcount fuel arr' (by intro h; rw [h] at hlen; simp at hlen; omega) harr'' rfl (by omega)
    have hback : ∀ i x, arr'[i]? = some (.fin x) → arr[i]? = some (.fin x) ∧ ¬ Near e mi i := by
      intro i y hi
      rw [hget' i] at hi
      split at hi
      · simp at hi
      · rename_i hni
        refine ⟨hi, fun hnear => hni ⟨hnear, ?_⟩⟩
        by_contra hge
        rw [List.getElem?_eq_none (by omega)] at hi
        cases hi
    refine ⟨mi :: is, by simp [hp, h1], ?_, ?_, ?_, by simp; omega⟩
    · intro i hi
      rcases List.mem_cons.mp hi with rfl | hi
      · exact ⟨x, by rw [List.getElem?_eq_getElem hlt, hx]⟩
      · obtain ⟨y, hy⟩ := h2 i hi
        exact ⟨y, (hback i y hy).1⟩
    · rw [List.pairwise_cons]
      constructor
      · intro j hj
        obtain ⟨y, hy⟩ := h2 j hj
        obtain ⟨hy1, hy2⟩ := hback j y hy
        refine ⟨hy2, ?_⟩
        intro a b ha hb
        rw [List.getElem?_eq_getElem hlt, hx] at ha
        simp at ha; subst ha
        obtain ⟨hj', hjb⟩ := List.getElem?_eq_some_iff.mp hb
        have := (hmin hnan).1 j hj'
        rw [hx, hjb] at this
        simpa using this
      · apply List.Pairwise.imp_of_mem _ h3
        intro i j hi hj ⟨h, h'⟩
        refine ⟨h, ?_⟩
        obtain ⟨yi, hyi⟩ := h2 i hi
        obtain ⟨yj, hyj⟩ := h2 j hj
        intro a b ha hb
        rw [(hback i yi hyi).1] at ha
        rw [(hback j yj hyj).1] at hb
        simp at ha hb
        subst ha; subst hb
        exact h' _ _ hyi hyj
    · intro j y hj
      by_cases hnear : Near e mi j
      · refine ⟨mi, by simp, x, hnear, by rw [List.getElem?_eq_getElem hlt, hx], ?_⟩
        obtain ⟨hj', hjb⟩ := List.getElem?_eq_some_iff.mp hj
        have := (hmin hnan).1 j hj'
        rw [hx, hjb] at this
        simpa using this
      · have hj' : arr'[j]? = some (.fin y) := by rw [hget' j, if_neg (fun h => hnear h.1), hj]
        obtain ⟨i, hi, z, hz1, hz2, hz3⟩ := h4 j y hj'
        exact ⟨i, List.mem_cons_of_mem _ hi, z, hz1, (hback i z hz2).1, hz3⟩

theorem masked_getElem? (arr : List (Fl K)) (i : Nat) (x : K) :
    (arr.map fun v => if v.isFinite then v else .pinf)[i]? = some (.fin x) ↔ arr[i]? = some (.fin x) := by
  rw [List.getElem?_map]
  cases arr[i]? with
  | none => simp
  | some v => cases v <;> simp [Fl.isFinite]

/-- All facts about one call, for a non-empty array. -/
theorem lowestValueIdxs_spec (arr : List (Fl K)) (hne : arr ≠ []) (e : Nat) (fuel : Nat) (hf : arr.length ≤ fuel) :
    ∃ is, lowestValueIdxs fuel arr (some e) = .ok (some is) ∧
      (∀ i ∈ is, ∃ x, arr[i]? = some (.fin x)) ∧
      is.Pairwise (fun i j => ¬ Near e i j ∧ ∀ x y, arr[i]? = some (.fin x) → arr[j]? = some (.fin y) → x ≤ y) ∧
      (∀ j x, arr[j]? = some (.fin x) → ∃ i ∈ is, ∃ y, Near e i j ∧ arr[i]? = some (.fin y) ∧ y ≤ x) ∧
      is.length ≤ arr.length := by
  have hcl : (arr.map fun v => if v.isFinite then v else .pinf).countP (fun v => decide (v ≠ .pinf)) ≤ arr.length := by
    have := List.countP_le_length (p := fun v : Fl K => decide (v ≠ .pinf)) (l := arr.map fun v => if v.isFinite then v else .pinf)
    simpa using this
  obtain ⟨is, h1, h2, h3, h4, h5⟩ := lowestLoop_spec e _ fuel (arr.map fun v => if v.isFinite then v else .pinf)
    (by simpa using hne) (by
      intro v hv
      obtain ⟨u, _, rfl⟩ := List.mem_map.mp hv
      cases u <;> simp [Fl.isFinite]) rfl (by omega)
  simp only [masked_getElem?] at h2 h3 h4
  refine ⟨is, ?_, h2, h3, h4, by omega⟩
  unfold lowestValueIdxs
  simp only
  rw [if_neg (by omega)]
  exact h1

/-- **C12**: whenever the generator finishes, every index is the position of a finite value, the indices are pairwise
more than `exclude_distance` apart and come in order of non-decreasing value. -/
theorem C12_separated_sorted (arr : List (Fl K)) (e : Nat) (fuel : Nat) (is : List Nat) (hf : arr.length ≤ fuel)
    (h : lowestValueIdxs fuel arr (some e) = .ok (some is)) :
    (∀ i ∈ is, ∃ x, arr[i]? = some (.fin x)) ∧
    is.Pairwise (fun (i j : Nat) => (e : Int) < |(i : Int) - j| ∧ ∀ x y, arr[i]? = some (.fin x) → arr[j]? = some (.fin y) → x ≤ y) := by
  have hne : arr ≠ [] := by
    rintro rfl
    unfold lowestValueIdxs lowestLoop at h
    simp only [Int.natCast_nonneg, not_lt.mpr, if_false] at h
    simp [npArgmin, npMin, bind, Except.bind] at h
  obtain ⟨is', h1, h2, h3, _⟩ := lowestValueIdxs_spec arr hne e fuel hf
  rw [h1] at h
  simp at h; subst h
  refine ⟨h2, h3.imp ?_⟩
  rintro i j ⟨hn, hv⟩
  refine ⟨?_, hv⟩
  unfold Near at hn
  rcases abs_cases ((i : Int) - j) with ⟨h, _⟩ | ⟨h, _⟩ <;> omega

example := C12_separated_sorted [.fin 3, .nan, .fin 1, .fin 1, .ninf, .fin (2 : Int)] 1 6 [2, 5, 0] (by decide) (by decide)

/-- **C12**: invalid arguments raise; an empty array raises `ValueError` (from `np.argmin`). -/
theorem C12_invalid_raises (fuel : Nat) (arr : List (Fl K)) (e : Int) :
    lowestValueIdxs fuel arr none = .error .runtimeError ∧
    (e < 0 → lowestValueIdxs fuel arr (some e) = .error .runtimeError) ∧
    (0 ≤ e → lowestValueIdxs fuel ([] : List (Fl K)) (some e) = .error .valueError) := by
  refine ⟨rfl, fun h => by simp [lowestValueIdxs, h], fun h => ?_⟩
  unfold lowestValueIdxs lowestLoop
  simp only
  rw [if_neg (by omega)]
  simp [npArgmin, npMin, bind, Except.bind]

example : lowestValueIdxs 6 [.fin (3 : Int)] (some (-1)) = .error .runtimeError := (C12_invalid_raises 6 [.fin (3 : Int)] (-1)).2.1 (by decide)

/-- **C13**: the generator stops (within as many iterations as there are entries), and every finite value of the array
is within `exclude_distance` of a produced index whose value is no larger. -/
theorem C13_exhaustive (arr : List (Fl K)) (hne : arr ≠ []) (e : Nat) (fuel : Nat) (hf : arr.length ≤ fuel) :
    ∃ is, lowestValueIdxs fuel arr (some e) = .ok (some is) ∧ is.length ≤ arr.length ∧
      ∀ (j : Nat) (x : K), arr[j]? = some (.fin x) →
        ∃ i ∈ is, ∃ y, |(i : Int) - j| ≤ e ∧ arr[i]? = some (.fin y) ∧ y ≤ x := by
  obtain ⟨is, h1, _, _, h4, h5⟩ := lowestValueIdxs_spec arr hne e fuel hf
  refine ⟨is, h1, h5, fun j x hj => ?_⟩
  obtain ⟨i, hi, y, hn, hy⟩ := h4 j x hj
  refine ⟨i, hi, y, ?_, hy⟩
  unfold Near at hn
  rw [abs_le]; omega

example := C13_exhaustive [.fin 3, .nan, .fin 1, .fin 1, .ninf, .fin (2 : Int)] (by decide) 1 6 (by decide)

/-- Non-vacuity (C12, C13): NaN, infinities and ties. -/
example : lowestValueIdxs 6 [.fin 3, .nan, .fin 1, .fin 1, .ninf, .fin (2 : Int)] (some 1) = .ok (some [2, 5, 0]) := by decide

/-- **C14**: `highest_value_idxs` stops; it yields positions of finite values, pairwise more than `exclude_distance` apart,
in non-increasing order, and every finite value is within `exclude_distance` of a produced index with no smaller value. -/
theorem C14_highest [AddCommGroup K] [IsOrderedAddMonoid K] (arr : List (Fl K)) (hne : arr ≠ []) (e : Nat) (fuel : Nat)
    (hf : arr.length ≤ fuel) :
    ∃ is, highestValueIdxs fuel arr (some e) = .ok (some is) ∧
      (∀ i ∈ is, ∃ x, arr[i]? = some (.fin x)) ∧
      is.Pairwise (fun (i j : Nat) => (e : Int) < |(i : Int) - j| ∧ ∀ x y, arr[i]? = some (.fin x) → arr[j]? = some (.fin y) → y ≤ x) ∧
      ∀ (j : Nat) (x : K), arr[j]? = some (.fin x) →
        ∃ i ∈ is, ∃ y, |(i : Int) - j| ≤ e ∧ arr[i]? = some (.fin y) ∧ x ≤ y := by
  have hneg : ∀ (i : Nat) (x : K), (arr.map Fl.neg)[i]? = some (.fin x) ↔ arr[i]? = some (.fin (-x)) := by
    intro i x
    rw [List.getElem?_map]
    cases arr[i]? with
    | none => simp
    | some v => cases v <;> simp [Fl.neg, neg_eq_iff_eq_neg]
  obtain ⟨is, h1, h2, h3, h4, _⟩ := lowestValueIdxs_spec (arr.map Fl.neg) (by simpa using hne) e fuel (by simpa using hf)
  simp only [hneg] at h2 h3 h4
  refine ⟨is, h1, ?_, h3.imp ?_, ?_⟩
  · intro i hi
    obtain ⟨x, hx⟩ := h2 i hi
    exact ⟨-x, hx⟩
  · rintro i j ⟨hn, hv⟩
    constructor
    · unfold Near at hn
      rcases abs_cases ((i : Int) - j) with ⟨h, _⟩ | ⟨h, _⟩ <;> omega
    · intro x y hx hy
      have := hv (-x) (-y) (by simpa using hx) (by simpa using hy)
      simpa using this
  · intro j x hj
    obtain ⟨i, hi, y, hn, hy, hle⟩ := h4 j (-x) (by simpa using hj)
    refine ⟨i, hi, -y, ?_, hy, le_neg_of_le_neg hle⟩
    unfold Near at hn
    rw [abs_le]; omega

example := C14_highest [.fin 3, .nan, .fin 1, .fin 1, .pinf, .fin (2 : Int)] (by decide) 1 6 (by decide)

example : highestValueIdxs 6 [.fin 3, .nan, .fin 1, .fin 1, .pinf, .fin (2 : Int)] (some 1) = .ok (some [0, 5, 2]) := by decide

end Verif
