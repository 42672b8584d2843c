import Verif.Lemmas.FloatArith
import Verif.Lemmas.Float
import Verif.Props.DistancedThreshold
import Mathlib.Data.List.NodupEquivFin
import Mathlib.Tactic.Positivity

/-!
Sums of the smallest values of a list.
-/

namespace Verif
variable {K : Type} [Field K] [LinearOrder K]

namespace Fl

theorem add_comm' (a b : Fl K) : add a b = add b a := by
  cases a <;> cases b <;> simp [add, add_comm]

theorem add_assoc' (a b c : Fl K) : add (add a b) c = add a (add b c) := by
  cases a <;> cases b <;> cases c <;> simp [add, add_assoc]

theorem zero_add' (a : Fl K) : add (fin 0) a = a := by
  cases a <;> simp [add]

theorem foldl_add_init (l : List (Fl K)) (a : Fl K) : l.foldl add a = add a (sum l) := by
  unfold sum
  induction l generalizing a with
  | nil => cases a <;> simp [add]
  | cons x l ih =>
    rw [List.foldl_cons, List.foldl_cons, ih, ih (add (fin 0) x), zero_add', add_assoc']

theorem sum_cons (x : Fl K) (l : List (Fl K)) : sum (x :: l) = add x (sum l) := by
  unfold sum
  rw [List.foldl_cons, foldl_add_init, zero_add']
  rfl

@[simp] theorem sum_nil : sum ([] : List (Fl K)) = fin 0 := rfl

theorem sum_append (a b : List (Fl K)) : sum (a ++ b) = add (sum a) (sum b) := by
  induction a with
  | nil => simp [zero_add']
  | cons x a ih => rw [List.cons_append, sum_cons, sum_cons, ih, add_assoc']

theorem sum_perm {a b : List (Fl K)} (h : a.Perm b) : sum a = sum b := by
  induction h with
  | nil => rfl
  | cons x _ ih => rw [sum_cons, sum_cons, ih]
  | swap x y l => rw [sum_cons, sum_cons, sum_cons, sum_cons, ← add_assoc', ← add_assoc', add_comm' x y]
  | trans _ _ h1 h2 => exact h1.trans h2

/-- Next partial sum. -/
theorem sum_take_succ (l : List (Fl K)) (k : Nat) (x : Fl K) (h : l[k]? = some x) : add (sum (l.take k)) x = sum (l.take (k + 1)) := by
  rw [List.take_add_one, h, sum_append]
  simp only [Option.toList_some, sum_cons, sum_nil]
  cases x <;> simp [add]

variable [IsStrictOrderedRing K]

theorem add_le_add' {a b a' b' : Fl K} (ha : a ≠ ninf) (hb : b ≠ ninf) (h1 : a ≤ a') (h2 : b ≤ b') : add a b ≤ add a' b' := by
  cases a <;> cases a' <;> cases b <;> cases b' <;> first
    | exact absurd rfl ha
    | exact absurd rfl hb
    | (exfalso; simp [le_def, key] at h1; done)
    | (exfalso; simp [le_def, key] at h2; done)
    | exact (fin_lt_pinf _).le
    | (simp [add]; done)
    | (simp only [add, fin_le_fin] at *; exact _root_.add_le_add h1 h2)
    | exact (fin_lt_pinf _).le
    | (simp [add, le_def, key]; done)

theorem add_ne_ninf {a b : Fl K} (ha : a ≠ ninf) (hb : b ≠ ninf) : add a b ≠ ninf := by
  cases a <;> cases b <;> simp_all [add]

theorem add_ne_nan {a b : Fl K} (ha : a ≠ ninf) (hb : b ≠ ninf) (ha' : a ≠ nan) (hb' : b ≠ nan) : add a b ≠ nan := by
  cases a <;> cases b <;> simp_all [add]

theorem sum_ne_ninf (l : List (Fl K)) (h : ∀ x ∈ l, x ≠ ninf) : sum l ≠ ninf := by
  induction l with
  | nil => simp
  | cons x l ih =>
    rw [sum_cons]
    exact add_ne_ninf (h x (by simp)) (ih fun y hy => h y (by simp [hy]))

theorem sum_ne_nan (l : List (Fl K)) (h : ∀ x ∈ l, x ≠ ninf ∧ x ≠ nan) : sum l ≠ nan := by
  induction l with
  | nil => simp
  | cons x l ih =>
    rw [sum_cons]
    exact add_ne_nan (h x (by simp)).1 (sum_ne_ninf l fun y hy => (h y (by simp [hy])).1) (h x (by simp)).2 (ih fun y hy => h y (by simp [hy]))

theorem sum_nonneg (l : List (Fl K)) (h : ∀ x ∈ l, fin 0 ≤ x) : fin 0 ≤ sum l := by
  induction l with
  | nil => simp
  | cons x l ih =>
    rw [sum_cons]
    have := add_le_add' (a := fin 0) (b := fin 0) (by simp) (by simp) (h x (by simp)) (ih fun y hy => h y (by simp [hy]))
    simpa [add] using this

theorem sum_le_sum {a b : List (Fl K)} (ha : ∀ x ∈ a, x ≠ ninf) (h : List.Forall₂ (· ≤ ·) a b) : sum a ≤ sum b := by
  induction h with
  | nil => simp
  | cons hx _ ih =>
    rw [sum_cons, sum_cons]
    exact add_le_add' (ha _ (by simp)) (sum_ne_ninf _ fun y hy => ha y (by simp [hy])) hx (ih fun y hy => ha y (by simp [hy]))

theorem div_le_div' {a b : Fl K} (n : Nat) (h : a ≤ b) : div a (fin ((n : K) + 1)) ≤ div b (fin ((n : K) + 1)) := by
  have hn : (0 : K) < (n : K) + 1 := by positivity
  cases a <;> cases b <;> simp [le_def, key, div, hn.ne', hn.le] at h ⊢
  exact div_le_div_of_nonneg_right h hn.le

theorem div_nan_iff (a : Fl K) (n : Nat) : div a (fin ((n : K) + 1)) = nan ↔ a = nan := by
  have hn : (0 : K) < (n : K) + 1 := by positivity
  cases a <;> simp [div, hn.ne', hn.le]

end Fl

variable [IsStrictOrderedRing K]

/-- The `n` first values of a sorted list are, position by position, not above those of any sorted sublist. -/
theorem take_le_sublist {s t : List (Fl K)} (hs : s.Pairwise (· ≤ ·)) (h : t.Sublist s) : List.Forall₂ (· ≤ ·) (s.take t.length) t := by
  rw [List.sublist_iff_exists_orderEmbedding_getElem?_eq] at h
  obtain ⟨f, hf⟩ := h
  rw [forall₂_iff_getElem?]
  have hlen : t.length ≤ s.length := by
    rcases Nat.eq_zero_or_pos t.length with h0 | h0
    · omega
    · have h1 := hf (t.length - 1)
      have h2 : t.length - 1 ≤ f (t.length - 1) := f.strictMono.le_apply
      rw [List.getElem?_eq_getElem (by omega)] at h1
      have := (List.getElem?_eq_some_iff.mp h1.symm).1
      omega
  refine ⟨by simpa using hlen, fun i x y hx hy => ?_⟩
  have hi : i < t.length := (List.getElem?_eq_some_iff.mp hy).1
  rw [List.getElem?_take, if_pos hi] at hx
  rw [hf i] at hy
  have hle : i ≤ f i := f.strictMono.le_apply
  rcases Nat.eq_or_lt_of_le hle with he | he
  · rw [← he, hx] at hy
    exact le_of_eq (Option.some.inj hy)
  · obtain ⟨a1, a2⟩ := List.getElem?_eq_some_iff.mp hx
    obtain ⟨b1, b2⟩ := List.getElem?_eq_some_iff.mp hy
    have := List.pairwise_iff_getElem.mp hs i (f i) a1 b1 he
    rw [a2, b2] at this
    exact this

/-- Values of the channels `T`. -/
def Spec.chan (vec : List (Fl K)) (T : List Nat) : List (Fl K) := T.map fun i => vec.getD i .nan

omit [Field K] [IsStrictOrderedRing K] in
theorem chan_range (vec : List (Fl K)) : Spec.chan vec (List.range vec.length) = vec := by
  apply List.ext_getElem?
  intro i
  unfold Spec.chan
  rcases Nat.lt_or_ge i vec.length with h | h
  · simp [h]
  · simp [h]

/-- The sum of the smallest values is not above the sum of any choice of as many different channels. -/
theorem smallest_le (vec : List (Fl K)) (hv : ∀ x ∈ vec, x ≠ .ninf) (T : List Nat) (hT : T.Nodup) (hlt : ∀ i ∈ T, i < vec.length) :
    Fl.sum ((npSort vec).take T.length) ≤ Fl.sum (Spec.chan vec T) := by
  have h1 : (Spec.chan vec T).Subperm vec := by
    have h2 : T.Subperm (List.range vec.length) := List.subperm_of_subset hT fun i hi => List.mem_range.mpr (hlt i hi)
    have h3 : (T.map fun i => vec.getD i .nan).Subperm ((List.range vec.length).map fun i => vec.getD i .nan) := by
      obtain ⟨l, h5, h6⟩ := h2
      exact ⟨_, h5.map _, h6.map _⟩
    have h4 := chan_range vec
    unfold Spec.chan at h4 ⊢
    rw [h4] at h3
    exact h3
  have hp : (npSort (Spec.chan vec T)).Perm (Spec.chan vec T) := List.perm_insertionSort _ _
  have hq : (npSort vec).Perm vec := List.perm_insertionSort _ _
  have hsub : (npSort (Spec.chan vec T)).Sublist (npSort vec) :=
    List.sublist_of_subperm_of_pairwise (r := (· ≤ ·)) (hp.subperm.trans (h1.trans hq.symm.subperm)) (List.pairwise_insertionSort _ _) (List.pairwise_insertionSort _ _)
  rw [← Fl.sum_perm hp]
  have := take_le_sublist (List.pairwise_insertionSort _ _) hsub
  rw [hp.length_eq] at this
  simp only [Spec.chan, List.length_map] at this
  exact Fl.sum_le_sum (fun x hx => hv x (hq.mem_iff.mp (List.mem_of_mem_take hx))) this

omit [Field K] [IsStrictOrderedRing K] in
/-- Any result of `argsort` lists the values in sorted order. -/
theorem argsort_sorted (vec : List (Fl K)) (o : List Nat) (ho : Spec.IsArgsort vec o) : Spec.chan vec o = npSort vec := by
  have hq : (npSort vec).Perm vec := List.perm_insertionSort _ _
  have h1 : (Spec.chan vec o).Perm vec := by
    have := ho.1.map fun i => vec.getD i .nan
    have h4 := chan_range vec
    unfold Spec.chan at h4 ⊢
    rw [h4] at this
    exact this
  refine List.Perm.eq_of_pairwise' (r := (· ≤ ·)) ?_ (List.pairwise_insertionSort _ _) (h1.trans hq.symm)
  unfold Spec.chan
  rw [List.pairwise_map]
  have hlt : ∀ i ∈ o, i < vec.length := fun i hi => List.mem_range.mp (ho.1.mem_iff.mp hi)
  refine List.Pairwise.imp_of_mem ?_ ho.2
  intro i j hi hj h
  have h2 := hlt i hi
  have h3 := hlt j hj
  exact h _ _ (by simp [List.getD, h2]) (by simp [List.getD, h3])

end Verif
