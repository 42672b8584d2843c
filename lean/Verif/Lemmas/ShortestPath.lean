import Verif.Model.Util
import Verif.Spec.Paths
import Mathlib.Algebra.BigOperators.Group.List.Basic

namespace Verif
open Spec

section
variable {K : Type} [AddCommMonoid K] [LinearOrder K]

/-- The recurrence computed by the loops. -/
def spRec (cost : Mat K) : Nat → Nat → K
  | 0, 0 => cost 0 0
  | 0, j + 1 => spRec cost 0 j + cost 0 (j + 1)
  | i + 1, 0 => spRec cost i 0 + cost (i + 1) 0
  | i + 1, j + 1 => min (min (spRec cost i (j + 1)) (spRec cost (i + 1) j)) (spRec cost i j) + cost (i + 1) (j + 1)
termination_by i j => i + j

theorem cumsumAt_row (cost : Mat K) (j : Nat) : cumsumAt (fun c => cost 0 c) j = spRec cost 0 j := by
  induction j with
  | zero => simp [cumsumAt, spRec]
  | succ j ih => simp [cumsumAt, spRec, ih]

theorem cumsumAt_col (cost : Mat K) (i : Nat) : cumsumAt (fun r => cost r 0) i = spRec cost i 0 := by
  induction i with
  | zero => simp [cumsumAt, spRec]
  | succ j ih => simp [cumsumAt, spRec, ih]

theorem sp_inner (cost : Mat K) (c : Nat) (hc : 0 < c) (n : Nat) (dist : Mat K)
    (h0 : dist c 0 = spRec cost c 0) (hprev : ∀ r, r ≤ n → dist (c - 1) r = spRec cost (c - 1) r) :
    let d' := (List.range' 1 n).foldl (fun dist r =>
      Mat.set dist c r (min (min (dist (c - 1) r) (dist c (r - 1))) (dist (c - 1) (r - 1)) + cost c r)) dist
    (∀ i j, i ≠ c ∨ j = 0 ∨ n < j → d' i j = dist i j) ∧ ∀ j, j ≤ n → d' c j = spRec cost c j := by
  induction n with
  | zero =>
    simp only [List.range'_zero, List.foldl_nil]
    refine ⟨fun _ _ _ => trivial, fun j hj => ?_⟩
    obtain rfl : j = 0 := by omega
    exact h0
  | succ n ih =>
    obtain ⟨h1, h2⟩ := ih (fun r hr => hprev r (by omega))
    simp only [List.range'_1_concat, List.foldl_append, List.foldl_cons, List.foldl_nil]
    generalize hd : (List.range' 1 n).foldl (fun dist r =>
      Mat.set dist c r (min (min (dist (c - 1) r) (dist c (r - 1))) (dist (c - 1) (r - 1)) + cost c r)) dist = d at *
    obtain ⟨c, rfl⟩ : ∃ c', c = c' + 1 := ⟨c - 1, by omega⟩
    constructor
    · intro i j hij
      unfold Mat.set
      rw [if_neg (by omega)]
      exact h1 i j (by omega)
    · intro j hj
      unfold Mat.set
      by_cases hjn : j = 1 + n
      · rw [if_pos ⟨rfl, hjn⟩]
        subst hjn
        have e1 := h1 (c + 1 - 1) (1 + n) (by omega)
        have e2 := h1 (c + 1 - 1) (1 + n - 1) (by omega)
        rw [e1, e2, hprev _ (by omega), hprev _ (by omega), h2 (1 + n - 1) (by omega)]
        rw [show 1 + n = n + 1 by omega, show c + 1 - 1 = c by omega, show n + 1 - 1 = n by omega]
        conv_rhs => rw [spRec]
      · rw [if_neg (by omega)]
        exact h2 j (by omega)

theorem sp_outer (cost : Mat K) (w : Nat) (n : Nat) (dist : Mat K) (hw : 0 < w)
    (hcol : ∀ i, i ≤ n → dist i 0 = spRec cost i 0) (hrow : ∀ j, j < w → dist 0 j = spRec cost 0 j) :
    let d' := (List.range' 1 n).foldl (fun dist c => (List.range' 1 (w - 1)).foldl (fun dist r =>
      Mat.set dist c r (min (min (dist (c - 1) r) (dist c (r - 1))) (dist (c - 1) (r - 1)) + cost c r)) dist) dist
    (∀ i, n < i → ∀ j, d' i j = dist i j) ∧ ∀ i j, i ≤ n → j < w → d' i j = spRec cost i j := by
  induction n with
  | zero =>
    simp only [List.range'_zero, List.foldl_nil]
    refine ⟨fun _ _ _ => trivial, fun i j hi hj => ?_⟩
    obtain rfl : i = 0 := by omega
    exact hrow j hj
  | succ n ih =>
    obtain ⟨h1, h2⟩ := ih (fun i hi => hcol i (by omega))
    simp only [List.range'_1_concat (n := n), List.foldl_append, List.foldl_cons, List.foldl_nil]
    generalize hd : (List.range' 1 n).foldl (fun dist c => (List.range' 1 (w - 1)).foldl (fun dist r =>
      Mat.set dist c r (min (min (dist (c - 1) r) (dist c (r - 1))) (dist (c - 1) (r - 1)) + cost c r)) dist) dist = d at *
    obtain ⟨i1, i2⟩ := sp_inner cost (1 + n) (by omega) (w - 1) d
      (by rw [h1 _ (by omega), hcol _ (by omega)]) (fun r hr => h2 _ _ (by omega) (by omega))
    constructor
    · intro i hi j
      rw [i1 i j (by omega), h1 i (by omega) j]
    · intro i j hi hj
      by_cases hin : i = 1 + n
      · subst hin
        exact i2 j (by omega)
      · rw [i1 i j (by omega)]
        exact h2 i j (by omega) hj

theorem shortestPathDistances_eq (junk : Mat K) (h w : Nat) (cost : Mat K) (i j : Nat) (hi : i < h) (hj : j < w) :
    shortestPathDistances junk h w cost i j = spRec cost i j := by
  unfold shortestPathDistances
  simp only
  refine (sp_outer cost w (h - 1) _ (by omega) ?_ ?_).2 i j (by omega) hj
  · intro i hi'
    rw [if_pos ⟨rfl, by omega⟩, cumsumAt_col]
  · intro j hj'
    by_cases h0 : j = 0
    · subst h0
      rw [if_pos ⟨rfl, by omega⟩, cumsumAt_col]
    · rw [if_neg (by omega), if_pos ⟨rfl, hj'⟩, cumsumAt_row]

theorem pathCost_append (cost : Mat K) (p : List (Nat × Nat)) (c : Nat × Nat) :
    pathCost cost (p ++ [c]) = pathCost cost p + cost c.1 c.2 := by
  simp [pathCost]

theorem isPath_append {p : List (Nat × Nat)} {e c : Nat × Nat} (hp : IsPath p e) (hs : IsStep e c) : IsPath (p ++ [c]) c := by
  refine ⟨?_, by simp, ?_⟩
  · rw [List.head?_append, hp.head]; rfl
  · rw [List.isChain_append]
    refine ⟨hp.chain, by simp, ?_⟩
    intro x hx y hy
    rw [hp.last] at hx
    simp at hx hy
    subst hx; subst hy; exact hs

/-- Paths are built by single steps. -/
theorem isPath_cases {p : List (Nat × Nat)} {e : Nat × Nat} (hp : IsPath p e) :
    (p = [(0, 0)] ∧ e = (0, 0)) ∨ ∃ q e', p = q ++ [e] ∧ IsPath q e' ∧ IsStep e' e := by
  rcases List.eq_nil_or_concat p with rfl | ⟨q, x, rfl⟩
  · have := hp.head; simp at this
  · rw [List.concat_eq_append] at *
    have hl := hp.last
    simp at hl
    subst hl
    rcases List.eq_nil_or_concat q with rfl | ⟨r, y, rfl⟩
    · have := hp.head
      simp at this
      left; simp [this]
    · rw [List.concat_eq_append] at *
      right
      refine ⟨r ++ [y], y, rfl, ⟨?_, by simp, ?_⟩, ?_⟩
      · have := hp.head
        rw [List.head?_append] at this
        cases hr : (r ++ [y]).head? with
        | none => simp at hr
        | some z => rw [hr] at this; simpa using this
      · exact (List.isChain_append.mp hp.chain).1
      · exact (List.isChain_append.mp hp.chain).2.2 y (by simp) x (by simp)

variable [IsOrderedAddMonoid K]

theorem spRec_le (cost : Mat K) (p : List (Nat × Nat)) (e : Nat × Nat) (hp : IsPath p e) :
    spRec cost e.1 e.2 ≤ pathCost cost p := by
  induction p using List.reverseRecOn generalizing e with
  | nil => have := hp.head; simp at this
  | append_singleton q x ih =>
    rcases isPath_cases hp with ⟨h, rfl⟩ | ⟨q', e', h, hq, hs⟩
    · rw [h]; simp [spRec, pathCost]
    · obtain ⟨rfl, he⟩ := List.append_inj' h rfl
      simp at he; subst he
      have := ih e' hq
      rw [pathCost_append]
      obtain ⟨a, b⟩ := e'
      rcases hs with rfl | rfl | rfl <;> simp only at this ⊢
      · cases b with
        | zero => rw [spRec]; exact add_le_add_left this _
        | succ b =>
          rw [spRec]
          exact add_le_add_left ((min_le_left _ _).trans ((min_le_left _ _).trans this)) _
      · cases a with
        | zero => rw [spRec]; exact add_le_add_left this _
        | succ b =>
          rw [spRec]
          exact add_le_add_left ((min_le_left _ _).trans ((min_le_right _ _).trans this)) _
      · rw [spRec]
        exact add_le_add_left ((min_le_right _ _).trans this) _

omit [IsOrderedAddMonoid K] in
theorem spRec_attained (cost : Mat K) (i j : Nat) :
    ∃ p, IsPath p (i, j) ∧ pathCost cost p = spRec cost i j := by
  fun_induction spRec cost i j with
  | case1 => exact ⟨[(0, 0)], ⟨rfl, rfl, by simp⟩, by simp [pathCost]⟩
  | case2 j ih =>
    obtain ⟨p, hp, hc⟩ := ih
    exact ⟨_, isPath_append hp (Or.inr (Or.inl rfl)), by rw [pathCost_append, hc]⟩
  | case3 i ih =>
    obtain ⟨p, hp, hc⟩ := ih
    exact ⟨_, isPath_append hp (Or.inl rfl), by rw [pathCost_append, hc]⟩
  | case4 i j ih1 ih2 ih3 =>
    obtain ⟨p1, hp1, hc1⟩ := ih1
    obtain ⟨p2, hp2, hc2⟩ := ih2
    obtain ⟨p3, hp3, hc3⟩ := ih3
    rcases min_choice (min (spRec cost i (j + 1)) (spRec cost (i + 1) j)) (spRec cost i j) with h | h
    · rw [h]
      rcases min_choice (spRec cost i (j + 1)) (spRec cost (i + 1) j) with h | h
      · rw [h]
        exact ⟨_, isPath_append hp1 (Or.inl rfl), by rw [pathCost_append, hc1]⟩
      · rw [h]
        exact ⟨_, isPath_append hp2 (Or.inr (Or.inl rfl)), by rw [pathCost_append, hc2]⟩
    · rw [h]
      exact ⟨_, isPath_append hp3 (Or.inr (Or.inr rfl)), by rw [pathCost_append, hc3]⟩

end

section Walk
variable {K : Type} [AddCommMonoid K] [LinearOrder K]

theorem wrapIdx_nat (n i : Nat) (h : i < n) : wrapIdx n (i : Int) = .ok i := by
  unfold wrapIdx
  have h1 : ¬ (i : Int) < 0 := by omega
  have h2 : (0 : Int) ≤ i ∧ (i : Int) < n := by omega
  simp only [h1, if_false, h2]
  simp

theorem read_nat (a : Mat (WithTop K)) (h w i j : Nat) (hi : i < h) (hj : j < w) :
    Mat.read a h w (i : Int) (j : Int) = .ok (a i j) := by
  simp [Mat.read, wrapIdx_nat, hi, hj, bind, Except.bind, pure, Except.pure]

theorem spRec_ne_top (cost : Mat (WithTop K)) (h w : Nat) (hfin : ∀ i j, i < h → j < w → cost i j ≠ ⊤) (i j : Nat)
    (hi : i < h) (hj : j < w) : spRec cost i j ≠ ⊤ := by
  fun_induction spRec cost i j with
  | case1 => exact hfin _ _ hi hj
  | case2 j ih => exact WithTop.add_ne_top.mpr ⟨ih hi (by omega), hfin _ _ hi hj⟩
  | case3 i ih => exact WithTop.add_ne_top.mpr ⟨ih (by omega) hj, hfin _ _ hi hj⟩
  | case4 i j ih1 ih2 ih3 =>
    have ih1 := ih1 (by omega) hj
    have ih2 := ih2 hi (by omega)
    have ih3 := ih3 (by omega) (by omega)
    refine WithTop.add_ne_top.mpr ⟨?_, hfin _ _ hi hj⟩
    rcases min_choice (min (spRec cost i (j + 1)) (spRec cost (i + 1) j)) (spRec cost i j) with h | h
    · rw [h]
      rcases min_choice (spRec cost i (j + 1)) (spRec cost (i + 1) j) with h | h
      · rw [h]; exact ih1
      · rw [h]; exact ih2
    · rw [h]; exact ih3

/-- One step of the walk goes to a cheapest predecessor. -/
theorem walkStep_spec (h w : Nat) (dist cost : Mat (WithTop K)) (hd : ∀ i j, i < h → j < w → dist i j = spRec cost i j)
    (hfin : ∀ i j, i < h → j < w → cost i j ≠ ⊤)
    (row col : Nat) (hr : row < h) (hc : col < w) (hne : ¬ (row = 0 ∧ col = 0)) (delta : Option (Int × Int)) :
    ∃ (r' c' : Nat) (d : Option (Int × Int)), walkStep h w dist row col delta = .ok ((r' : Int), (c' : Int), d) ∧
      r' < h ∧ c' < w ∧ r' + c' < row + col ∧
      IsStep (r', c') (row, col) ∧ spRec cost row col = spRec cost r' c' + cost row col := by
  cases row with
  | zero =>
    cases col with
    | zero => exact absurd ⟨rfl, rfl⟩ hne
    | succ c =>
      refine ⟨0, c, some (0, -1), ?_, hr, by omega, by omega, Or.inr (Or.inl rfl), by rw [spRec]⟩
      have e := read_nat dist h w 0 c hr (by omega)
      have hlt : dist 0 c < ⊤ := by
        rw [hd _ _ hr (by omega)]; exact lt_top_iff_ne_top.mpr (spRec_ne_top cost h w hfin _ _ (by omega) (by omega))
      unfold walkStep
      have e2 : ((c + 1 : Nat) : Int) - 1 = c := by push_cast; omega
      have e3 : ((c + 1 : Nat) : Int) ≠ 0 := by omega
      have e4 : ((c + 1 : Nat) : Int) + -1 = c := by push_cast; omega
      push_cast at e e2 e3 e4 ⊢
      simp [e3, e, hlt, e4, bind, Except.bind, pure, Except.pure]
  | succ r =>
    cases col with
    | zero =>
      refine ⟨r, 0, some (-1, 0), ?_, by omega, hc, by omega, Or.inl rfl, by rw [spRec]⟩
      have e := read_nat dist h w r 0 (by omega) hc
      have hlt : dist r 0 < ⊤ := by
        rw [hd _ _ (by omega) hc]; exact lt_top_iff_ne_top.mpr (spRec_ne_top cost h w hfin _ _ (by omega) (by omega))
      unfold walkStep
      have e2 : ((r + 1 : Nat) : Int) - 1 = r := by push_cast; omega
      have e3 : ((r + 1 : Nat) : Int) ≠ 0 := by omega
      have e4 : ((r + 1 : Nat) : Int) + -1 = r := by push_cast; omega
      push_cast at e e2 e3 e4 ⊢
      simp [e3, e, hlt, e4, bind, Except.bind, pure, Except.pure]
    | succ c =>
      have e1 := read_nat dist h w r c (by omega) (by omega)
      have e2 := read_nat dist h w r (c + 1) (by omega) (by omega)
      have e3 := read_nat dist h w (r + 1) c (by omega) (by omega)
      have f2 : ((c + 1 : Nat) : Int) - 1 = c := by push_cast; omega
      have f3 : ((c + 1 : Nat) : Int) ≠ 0 := by omega
      have f4 : ((c + 1 : Nat) : Int) + -1 = c := by push_cast; omega
      have g2 : ((r + 1 : Nat) : Int) - 1 = r := by push_cast; omega
      have g3 : ((r + 1 : Nat) : Int) ≠ 0 := by omega
      have g4 : ((r + 1 : Nat) : Int) + -1 = r := by push_cast; omega
      have f0 : ((c + 1 : Nat) : Int) + 0 = (c + 1 : Nat) := by omega
      have g0 : ((r + 1 : Nat) : Int) + 0 = (r + 1 : Nat) := by omega
      have hrec : spRec cost (r + 1) (c + 1) =
        min (min (spRec cost r (c + 1)) (spRec cost (r + 1) c)) (spRec cost r c) + cost (r + 1) (c + 1) := by
          conv_lhs => rw [spRec]
      have k1 := hd r c (by omega) (by omega)
      have k2 := hd r (c + 1) (by omega) (by omega)
      have k3 := hd (r + 1) c (by omega) (by omega)
      unfold walkStep
      simp only [f3, g3, f2, g2, e1, e2, e3, k1, k2, k3, ne_eq, not_false_eq_true, and_self, if_true, bind, Except.bind, pure, Except.pure]
      by_cases c1 : spRec cost r (c + 1) < spRec cost r c
      · simp only [c1, if_true]
        by_cases c2 : spRec cost (r + 1) c < spRec cost r (c + 1)
        · simp only [c2, if_true]
          refine ⟨r + 1, c, _, by rw [f4, g0], hr, by omega, by omega, Or.inr (Or.inl rfl), ?_⟩
          rw [hrec, min_eq_right (le_of_lt c2), min_eq_left (le_of_lt (c2.trans c1))]
        · simp only [c2, if_false]
          refine ⟨r, c + 1, _, by rw [f0, g4], by omega, hc, by omega, Or.inl rfl, ?_⟩
          rw [hrec, min_eq_left (not_lt.mp c2), min_eq_left (le_of_lt c1)]
      · simp only [c1, if_false]
        by_cases c2 : spRec cost (r + 1) c < spRec cost r c
        · simp only [c2, if_true]
          refine ⟨r + 1, c, _, by rw [f4, g0], hr, by omega, by omega, Or.inr (Or.inl rfl), ?_⟩
          rw [hrec, min_eq_right ((le_of_lt c2).trans (not_lt.mp c1)), min_eq_left (le_of_lt c2)]
        · simp only [c2, if_false]
          refine ⟨r, c, _, by rw [f4, g4], by omega, by omega, by omega, Or.inr (Or.inr rfl), ?_⟩
          rw [hrec, min_eq_right (le_min (not_lt.mp c1) (not_lt.mp c2))]

theorem walkLoop_spec (h w : Nat) (dist cost : Mat (WithTop K)) (hd : ∀ i j, i < h → j < w → dist i j = spRec cost i j)
    (hfin : ∀ i j, i < h → j < w → cost i j ≠ ⊤) (fuel : Nat) (row col : Nat) (hr : row < h) (hc : col < w) (hf : row + col ≤ fuel)
    (delta : Option (Int × Int)) (rest : List (Int × Int)) :
    ∃ p, IsPath p (row, col) ∧ pathCost cost p = spRec cost row col ∧
      walkLoop h w dist fuel row col delta (((row : Int), (col : Int)) :: rest) =
        .ok (some (p.map (fun c => ((c.1 : Int), (c.2 : Int))) ++ rest)) := by
  induction fuel generalizing row col delta rest with
  | zero =>
    obtain rfl : row = 0 := by omega
    obtain rfl : col = 0 := by omega
    refine ⟨[(0, 0)], ⟨rfl, rfl, by simp⟩, by simp [pathCost, spRec], ?_⟩
    unfold walkLoop
    simp
  | succ fuel ih =>
    by_cases h0 : row = 0 ∧ col = 0
    · obtain ⟨rfl, rfl⟩ := h0
      refine ⟨[(0, 0)], ⟨rfl, rfl, by simp⟩, by simp [pathCost, spRec], ?_⟩
      unfold walkLoop
      simp
    · obtain ⟨r', c', d, hs, hr', hc', hlt, hstep, hrec⟩ := walkStep_spec h w dist cost hd hfin row col hr hc h0 delta
      obtain ⟨p, hp, hcost, hres⟩ := ih r' c' hr' hc' (by omega) d (((row : Int), (col : Int)) :: rest)
      refine ⟨p ++ [(row, col)], isPath_append hp hstep, ?_, ?_⟩
      · rw [pathCost_append, hcost, hrec]
      · unfold walkLoop
        rw [if_neg (by omega)]
        simp only [hs, bind, Except.bind]
        rw [hres]
        simp

end Walk
end Verif
