import Verif.Model.Filter
import Verif.Spec.Filter
import Verif.Lemmas.Windows
import Verif.Lemmas.Slices
import Verif.Lemmas.RBGood
import Verif.Lemmas.FloatArith
import Verif.Lemmas.Calculator
import Verif.Lemmas.ColumnCache

/-!
Lemmas about the masks of the filter generator.
-/

namespace Verif
open Spec

namespace Filter

/-- Meaning of `impacted` after the points `P`. -/
def Impacted (m e : Nat) (P : List Bool) : Prop := ∀ j, j < e ↔ (lastN (m - 1 - j) P).any id = true

theorem lastN_zero {α : Type} (l : List α) : lastN 0 l = [] := by simp [lastN]

theorem lastN_snoc {α : Type} (n : Nat) (l : List α) (x : α) : lastN (n + 1) (l ++ [x]) = lastN n l ++ [x] := by
  unfold lastN
  rw [List.length_append, List.length_singleton, show l.length + 1 - (n + 1) = l.length - n by omega,
    List.drop_append_of_le_length (by omega)]

theorem Impacted.step {m e : Nat} {P : List Bool} (h : Impacted m e P) (b : Bool) : Impacted m (impact m e b - 1) (P ++ [b]) := by
  intro j
  by_cases hj : m - 1 - j = 0
  · rw [hj, lastN_zero]
    have := h j
    rw [hj, lastN_zero] at this
    simp only [List.any_nil, Bool.false_eq_true, iff_false, not_lt] at this ⊢
    unfold impact
    split <;> omega
  · rw [show m - 1 - j = (m - 1 - (j + 1)) + 1 by omega, lastN_snoc, List.any_append, Bool.or_eq_true, ← h (j + 1)]
    unfold impact
    cases b <;> simp <;> omega

theorem Impacted.mark {m e : Nat} (hm : 0 < m) {P : List Bool} (h : Impacted m e P) (b : Bool) :
    decide (impact m e b ≠ 0) = (lastN m (P ++ [b])).any id := by
  obtain ⟨k, rfl⟩ : ∃ k, m = k + 1 := ⟨m - 1, by omega⟩
  rw [lastN_snoc, List.any_append, Bool.eq_iff_iff, decide_eq_true_eq, Bool.or_eq_true]
  have := h 0
  simp only [Nat.add_sub_cancel, Nat.sub_zero] at this
  rw [← this]
  unfold impact
  cases b <;> simp

theorem maskWarmup_spec (m e : Nat) (P l : List Bool) (h : Impacted m e P) : Impacted m (maskWarmup m e l) (P ++ l) := by
  induction l generalizing e P with
  | nil => simpa [maskWarmup] using h
  | cons b l ih =>
    rw [show P ++ b :: l = (P ++ [b]) ++ l by simp]
    exact ih _ _ (h.step b)

theorem maskLoop_spec (m : Nat) (hm : 0 < m) (e : Nat) (P l : List Bool) (h : Impacted m e P) :
    maskLoop m e l = (List.range l.length).map fun k => (lastN m (P ++ l.take (k + 1))).any id := by
  induction l generalizing e P with
  | nil => rfl
  | cons b l ih =>
    rw [maskLoop, ih _ _ (h.step b), List.length_cons, List.range_succ_eq_map, List.map_cons, List.map_map, h.mark hm b]
    simp [Function.comp_def]

theorem invalidSubseq_ok (inv : List Bool) (m : Nat) (hm : 0 < m) (h : m ≤ inv.length + 1) :
    invalidSubseq inv m = .ok ((windows m inv).map (·.any id)) := by
  have h0 : Impacted m 0 [] := by intro j; simp [lastN]
  have h1 := maskWarmup_spec m 0 [] (inv.take (m - 1)) h0
  rw [List.nil_append] at h1
  unfold invalidSubseq
  rw [if_neg (by omega), maskLoop_spec m hm _ _ _ h1]
  congr 1
  unfold windows
  rw [List.map_map, List.length_drop, show inv.length - (m - 1) = inv.length + 1 - m by omega]
  apply List.map_congr_left
  intro k hk
  have hk := List.mem_range.mp hk
  rw [Function.comp_apply]
  congr 1
  rw [← List.take_add, show m - 1 + (k + 1) = k + m by omega]
  unfold lastN
  rw [List.length_take, show min (k + m) inv.length - m = k by omega, List.drop_take]
  congr 1; omega

theorem hasInvalid_iff {α : Type} (p : α → Bool) (m : Nat) (l : List α) (i : Nat) :
    hasInvalid p m l i = true ↔ ∃ k x, k < m ∧ l[i + k]? = some x ∧ p x = true := by
  unfold hasInvalid
  rw [List.any_eq_true]
  constructor
  · rintro ⟨x, hx, hp⟩
    obtain ⟨k, hk⟩ := List.mem_iff_getElem?.mp hx
    rw [List.getElem?_take] at hk
    split at hk
    · rename_i hkm
      rw [List.getElem?_drop] at hk
      exact ⟨k, x, hkm, hk, hp⟩
    · cases hk
  · rintro ⟨k, x, hk, hx, hp⟩
    refine ⟨x, List.mem_iff_getElem?.mpr ⟨k, ?_⟩, hp⟩
    rw [List.getElem?_take, if_pos hk, List.getElem?_drop, hx]

/-- The mask of the subsequences of `l`. -/
def maskOf {α : Type} (p : α → Bool) (m : Nat) (l : List α) : List Bool := (windows m l).map (·.any p)

theorem maskOf_length {α : Type} (p : α → Bool) (m : Nat) (l : List α) : (maskOf p m l).length = l.length + 1 - m := by
  simp [maskOf]

theorem maskOf_getElem? {α : Type} (p : α → Bool) (m : Nat) (l : List α) (i : Nat) :
    (maskOf p m l)[i]? = if i < l.length + 1 - m then some (hasInvalid p m l i) else none := by
  unfold maskOf hasInvalid
  rw [List.getElem?_map, windows_getElem?]
  split <;> rfl

theorem maskOf_map {α : Type} (p : α → Bool) (m : Nat) (l : List α) : (windows m (l.map p)).map (·.any id) = maskOf p m l := by
  unfold maskOf
  rw [windows_map, List.map_map]
  apply List.map_congr_left
  intro w _
  simp [List.any_map]

/-- Buffers of the points and the subsequences of a window of capacity `N` with contents `x`. -/
structure MasksOk (r : RB Bool × RB Bool) (N m : Nat) {α : Type} (p : α → Bool) (x : List α) : Prop where
  points : r.1.Good N
  sub : r.2.Good (N + 1 - m)
  points_eq : r.1.items = x.map p
  sub_eq : r.2.items = maskOf p m x

theorem pushMasks_ok {α : Type} (p : α → Bool) (r : RB Bool × RB Bool) (N m : Nat) (x d : List α) (hm : 0 < m) (hN : m ≤ N) (hd : 0 < d.length)
    (h : MasksOk r N m p x) : ∃ r', pushMasks m r.1 r.2 (d.map p) = .ok r' ∧ MasksOk r' N m p (lastN N (x ++ d)) := by
  obtain ⟨b1, p1, g1, i1, -⟩ := h.points.push (d.map p)
  rw [h.points_eq, ← List.map_append, lastN_map] at i1
  unfold pushMasks
  simp only [p1, bind, Except.bind, pure, Except.pure, i1, List.length_map]
  by_cases hlen : m ≤ (lastN N (x ++ d)).length
  · rw [if_pos hlen]
    have hfrom : pyFrom ((lastN N (x ++ d)).map p) (-((d.length : Int) + (m : Int) - 1)) =
        (lastN (d.length + m - 1) (lastN N (x ++ d))).map p := by
      rw [show -((d.length : Int) + (m : Int) - 1) = -((d.length + m - 1 : Nat) : Int) by omega, pyFrom_neg _ _ (by omega), lastN_map]
    rw [hfrom, slidingWindows_ok _ m hm (by rw [List.length_map, lastN_length]; omega)]
    simp only [maskOf_map]
    obtain ⟨b2, p2, g2, i2, -⟩ := h.sub.push (maskOf p m (lastN (d.length + m - 1) (lastN N (x ++ d))))
    rw [p2]
    refine ⟨_, rfl, ⟨g1, g2, i1, ?_⟩⟩
    rw [i2, h.sub_eq]
    unfold maskOf
    rw [← List.map_append, lastN_map, windows_derived m N x d hm hN]
  · rw [if_neg hlen]
    have hnew : windows m (lastN N (x ++ d)) = [] := windows_eq_nil _ _ (by omega)
    have hold : windows m x = [] := windows_eq_nil _ _ (by rw [lastN_length, List.length_append] at hlen; omega)
    exact ⟨_, rfl, ⟨g1, h.sub, i1, by rw [h.sub_eq]; unfold maskOf; rw [hnew, hold]⟩⟩

theorem emptyMasks_ok {α : Type} (p : α → Bool) (mem : Nat → List Bool) (hmem : ∀ n, (mem n).length = n) (scale : ℚ) (h1 : 1 ≤ scale) (h2 : scale ≤ 2)
    (m w : Nat) (hm : 0 < m) (h : m ≤ w) : ∃ r, emptyMasks mem scale m w = .ok r ∧ MasksOk r w m p [] := by
  unfold emptyMasks
  rw [if_neg (by omega)]
  have hk : w + 1 - m + m - 1 = w := by omega
  have hw : windows m ([] : List α) = [] := windows_eq_nil _ _ (by simpa using hm)
  refine ⟨_, rfl, ⟨?_, RB.mkEmpty_good_scale scale h1 h2 [] _ _ (by omega) (hmem _), RB.mkEmpty_items _ _ _, ?_⟩⟩
  · simp only [hk]; exact RB.mkEmpty_good_scale scale h1 h2 [] _ _ (by omega) (hmem _)
  · show (RB.mkEmpty _ _ _).items = _
    rw [RB.mkEmpty_items]; unfold maskOf; rw [hw]; rfl

end Filter
end Verif
