import Verif.Model.MatrixProfile
import Verif.Spec.Deliveries
import Verif.Lemmas.Calculator
import Verif.Lemmas.Float
import Verif.Lemmas.Slices
import Mathlib.Tactic.Ring
import Mathlib.Data.List.Induction

/-!
Lemmas about keeping a running minimum per column.
-/

namespace Verif
open Spec
variable {K : Type} [LinearOrder K]

/-- Keep the smaller one, the old one among equals. -/
def pick (b x : Fl K × Int) : Fl K × Int := if Fl.ltF x.1 b.1 then x else b

/-- Running minimum. -/
def best (l : List (Fl K × Int)) : Fl K × Int := l.foldl pick (.pinf, -1)

theorem best_append (a b : List (Fl K × Int)) : best (a ++ b) = b.foldl pick (best a) := by
  simp [best, List.foldl_append]

theorem foldPick_none (l : List (Fl K × Int)) (b : Fl K × Int) (h : ∀ x ∈ l, Fl.ltF x.1 b.1 = false) : l.foldl pick b = b := by
  induction l with
  | nil => rfl
  | cons x xs ih =>
    have : pick b x = b := by simp [pick, h x (by simp)]
    rw [List.foldl_cons, this]
    exact ih fun y hy => h y (by simp [hy])

theorem foldPick_eq (pre post : List (Fl K × Int)) (b x : Fl K × Int) (hb : b.1 ≠ .nan) (hx : x.1 < b.1)
    (hpre : ∀ y ∈ pre, y.1 = .nan ∨ x.1 < y.1) (hpost : ∀ y ∈ post, y.1 = .nan ∨ x.1 ≤ y.1) :
    (pre ++ x :: post).foldl pick b = x := by
  induction pre generalizing b with
  | nil =>
    have h1 : pick b x = x := by
      have : Fl.ltF x.1 b.1 = true := (Fl.ltF_iff _ _).mpr ⟨hx, hb⟩
      simp [pick, this]
    rw [List.nil_append, List.foldl_cons, h1]
    refine foldPick_none _ _ fun y hy => ?_
    have hxn : x.1 ≠ .nan := fun h => by rw [h] at hx; exact absurd hx (by simp)
    rw [Fl.ltF_false_iff _ _ hxn]
    rcases hpost y hy with h | h
    · rw [h]; simp
    · exact h
  | cons y ys ih =>
    rw [List.cons_append, List.foldl_cons]
    have hy := hpre y (by simp)
    refine ih _ ?_ ?_ fun z hz => hpre z (by simp [hz])
    · unfold pick
      split
      · rename_i h
        rw [Fl.ltF_iff] at h
        intro hc
        rw [hc] at h
        exact absurd h.1 (by simp)
      · exact hb
    · unfold pick
      split
      · rename_i h
        rw [Fl.ltF_iff] at h
        rcases hy with hy | hy
        · rw [hy] at h; exact absurd h.1 (by simp)
        · exact hy
      · exact hx

/-- The running minimum is the one the specification asks for. -/
theorem best_isBest (l : List (Fl K × Int)) : IsBest l (best l).1 (best l).2 := by
  induction l using List.reverseRecOn with
  | nil => exact ⟨by simp [best], by simp, Or.inl ⟨rfl, rfl⟩⟩
  | append_singleton l x ih =>
    rw [best_append]
    simp only [List.foldl_cons, List.foldl_nil]
    unfold pick
    split
    · rename_i h
      rw [Fl.ltF_iff] at h
      have hle : (best l).1 ≤ .pinf := (Fl.le_pinf_iff _).mpr h.2
      refine ⟨fun hc => ?_, fun y hy => ?_, Or.inr ⟨lt_of_lt_of_le h.1 hle, l, [], by simp, fun y hy => ?_⟩⟩
      · rw [hc] at h; exact absurd h.1 (by simp)
      · rcases List.mem_append.mp hy with hy | hy
        · exact (ih.lower y hy).imp_right fun h2 => (lt_of_lt_of_le h.1 h2).le
        · simp at hy; subst hy; exact Or.inr le_rfl
      · exact (ih.lower y hy).imp_right fun h2 => lt_of_lt_of_le h.1 h2
    · rename_i h
      rw [Bool.not_eq_true, Fl.ltF_false_iff _ _ ih.number] at h
      refine ⟨ih.number, fun y hy => ?_, ?_⟩
      · rcases List.mem_append.mp hy with hy | hy
        · exact ih.lower y hy
        · simp at hy; subst hy; exact Or.inr h
      · rcases ih.attained with h2 | ⟨h2, pre, post, h3, h4⟩
        · exact Or.inl h2
        · refine Or.inr ⟨h2, pre, post ++ [x], ?_, h4⟩
          conv_lhs => rw [h3]
          simp

/-- There is only one answer to the question. -/
theorem Spec.IsBest.unique {l : List (Fl K × Int)} {v v' : Fl K} {i i' : Int} (h : IsBest l v i) (h' : IsBest l v' i') : v = v' ∧ i = i' := by
  have key : ∀ v i, IsBest l v i → best l = (v, i) := by
    intro v i h
    rcases h.attained with ⟨h1, h2⟩ | ⟨h1, pre, post, h2, h3⟩
    · refine (foldPick_none _ _ fun x hx => ?_).trans (by rw [h1, h2])
      rw [Fl.ltF_false_iff _ _ (by simp)]
      rcases h.lower x hx with h4 | h4
      · rw [h4]; simp
      · rw [h1] at h4; exact h4
    · rw [best, h2]
      refine foldPick_eq _ _ _ _ (by simp) h1 h3 fun y hy => h.lower y ?_
      rw [h2]; simp [hy]
  have := (key _ _ h).symm.trans (key _ _ h')
  simpa using this

/-- The minimum of a part of a column, as a running minimum. -/
theorem foldPick_column (part : List (Fl K)) (hne : part ≠ []) (hn : Fl.nan ∉ part) (off : Nat) (b : Fl K × Int) (hb : b.1 ≠ .nan) :
    ∃ m j, npMin part = .ok m ∧ npArgmin part = .ok j ∧ part[j]? = some m ∧ m ≠ .nan ∧ (∀ x ∈ part, m ≤ x) ∧
      (part.zipIdx.map fun x : Fl K × Nat => (x.1, ((x.2 + off : Nat) : Int))).foldl pick b = pick b (m, ((j + off : Nat) : Int)) := by
  obtain ⟨j, hj, hlt, hm, -, hh⟩ := npArgmin_spec part hne
  obtain ⟨h1, h2⟩ := hh hn
  have hmn : part[j] ≠ .nan := fun h => hn (h ▸ List.getElem_mem hlt)
  refine ⟨part[j], j, hm, hj, by simp [hlt], hmn, ?_, ?_⟩
  · intro x hx
    obtain ⟨k, hk, rfl⟩ := List.mem_iff_getElem.mp hx
    exact h1 k hk
  · unfold pick
    split
    · rename_i h
      rw [Fl.ltF_iff] at h
      set L := part.zipIdx.map fun x : Fl K × Nat => (x.1, ((x.2 + off : Nat) : Int)) with hL
      have hlen : L.length = part.length := by simp [hL]
      have hget : ∀ k (hk : k < part.length), L[k]'(by omega) = (part[k], ((k + off : Nat) : Int)) := by
        intro k hk
        simp [hL]
      have hsplit : L = L.take j ++ L[j]'(by omega) :: L.drop (j + 1) := by simp
      rw [hsplit, hget j hlt]
      refine foldPick_eq _ _ _ _ hb h.1 ?_ ?_
      · intro y hy
        obtain ⟨k, hk, rfl⟩ := List.mem_iff_getElem.mp hy
        simp only [List.length_take] at hk
        rw [List.getElem_take, hget k (by omega)]
        exact Or.inr (h2 k (by omega) (by omega))
      · intro y hy
        obtain ⟨k, hk, rfl⟩ := List.mem_iff_getElem.mp hy
        simp only [List.length_drop] at hk
        rw [List.getElem_drop, hget _ (by omega)]
        exact Or.inr (h1 _ (by omega))
    · rename_i h
      rw [Bool.not_eq_true, Fl.ltF_false_iff _ _ hb] at h
      refine foldPick_none _ _ fun x hx => ?_
      rw [Fl.ltF_false_iff _ _ hb]
      obtain ⟨y, hy, rfl⟩ := List.mem_map.mp hx
      have := List.mem_zipIdx hy
      simp only at this ⊢
      refine h.trans ?_
      rw [this.2.2]
      exact h1 _ (by omega)

/-! ### Cells of a delivery, by column -/

omit [LinearOrder K] in
theorem entriesFor_append (a b : List (Cell K)) (c : Int) (left : Bool) : entriesFor (a ++ b) c left = entriesFor a c left ++ entriesFor b c left := by
  simp [entriesFor]

omit [LinearOrder K] in
theorem filter_zipIdx_eq (vals : List (Fl K)) (k0 c : Nat) :
    (vals.zipIdx k0).filter (fun x => decide (x.2 = c)) = if k0 ≤ c then (vals[c - k0]?.map fun v => (v, c)).toList else [] := by
  induction vals generalizing k0 with
  | nil => simp
  | cons v vs ih =>
    rw [List.zipIdx_cons, List.filter_cons, ih]
    by_cases h : k0 = c
    · subst h; simp
    · rcases Nat.lt_or_ge k0 c with h2 | h2
      · obtain ⟨d, hd⟩ : ∃ d, c - k0 = d + 1 := ⟨c - k0 - 1, by omega⟩
        have : c - (k0 + 1) = d := by omega
        simp [h, hd, this, show k0 + 1 ≤ c by omega, show k0 ≤ c by omega]
      · simp [h, show ¬ k0 + 1 ≤ c by omega, show ¬ k0 ≤ c by omega]

omit [LinearOrder K] in
/-- Cells of a diagonal in one column: at most one, on the side given by the sign of the stream diagonal. -/
theorem entriesFor_diag (d : Int) (vals : List (Fl K)) (ss qs : Nat) (c : Nat) (left : Bool) :
    entriesFor ((Delivery.diag d vals).cells ss qs) ((c + ss : Nat) : Int) left =
      if d.toNat ≤ c ∧ decide (0 ≤ d + ss - qs) = left then
        (vals[c - d.toNat]?.map fun v => (v, (((-d).toNat + (c - d.toNat) + qs : Nat) : Int))).toList else [] := by
  have hpred : ∀ x : Fl K × Nat, (decide (((d.toNat + x.2 + ss : Nat) : Int) = ((c + ss : Nat) : Int)) &&
      (decide ((((-d).toNat + x.2 + qs : Nat) : Int) ≤ ((d.toNat + x.2 + ss : Nat) : Int)) == left)) =
      (decide (x.2 + d.toNat = c) && (decide (0 ≤ d + ss - qs) == left)) := by
    intro x
    congr 1
    · rw [decide_eq_decide]; omega
    · congr 1
      rw [decide_eq_decide]; omega
  unfold entriesFor Delivery.cells
  simp only [List.filter_map, List.map_map, Function.comp_def, hpred]
  rcases Nat.lt_or_ge c d.toNat with h | h
  · rw [if_neg (by omega), List.map_eq_nil_iff, List.filter_eq_nil_iff]
    intro x _
    simp; omega
  · by_cases hl : decide (0 ≤ d + ss - qs) = left
    · rw [if_pos ⟨h, hl⟩]
      have : ∀ x : Fl K × Nat, (decide (x.2 + d.toNat = c) && (decide (0 ≤ d + ss - qs) == left)) = decide (x.2 = c - d.toNat) := by
        intro x
        simp only [hl, BEq.rfl, Bool.and_true, decide_eq_decide]; omega
      simp only [this]
      rw [filter_zipIdx_eq vals 0 (c - d.toNat)]
      cases h2 : vals[c - d.toNat]? <;> simp [h2]
    · rw [if_neg (by tauto), List.map_eq_nil_iff, List.filter_eq_nil_iff]
      intro x _
      rw [Bool.and_eq_true, beq_iff_eq]
      exact fun hh => hl hh.2

omit [LinearOrder K] in
theorem filter_zipIdx_lt (vals : List (Fl K)) (b : Nat) : vals.zipIdx.filter (fun x => decide (x.2 < b)) = (vals.take b).zipIdx := by
  conv_lhs => rw [← List.take_append_drop b vals, List.zipIdx_append, List.filter_append]
  rw [List.filter_eq_self.mpr, List.filter_eq_nil_iff.mpr, List.append_nil]
  · rintro ⟨v, i⟩ hx
    have := List.mem_zipIdx hx
    have hl := (List.length_take : (vals.take b).length = _)
    simp only [List.length_drop] at this
    simp; omega
  · rintro ⟨v, i⟩ hx
    have := List.mem_zipIdx hx
    simp at this ⊢; omega

omit [LinearOrder K] in
theorem filter_zipIdx_ge (vals : List (Fl K)) (b : Nat) :
    vals.zipIdx.filter (fun x => decide (b ≤ x.2)) = (vals.drop b).zipIdx.map fun x => (x.1, x.2 + b) := by
  conv_lhs => rw [← List.take_append_drop b vals, List.zipIdx_append, List.filter_append]
  rcases Nat.lt_or_ge b vals.length with hb | hb
  · rw [List.filter_eq_nil_iff.mpr, List.filter_eq_self.mpr, List.nil_append]
    · simp only [List.length_take, Nat.min_eq_left hb.le]
      rw [List.zipIdx_eq_map_add]
      simp [Nat.add_comm]
    · rintro ⟨v, i⟩ hx
      have := List.mem_zipIdx hx
      simp at this ⊢; omega
    · rintro ⟨v, i⟩ hx
      have := List.mem_zipIdx hx
      simp at this ⊢; omega
  · rw [List.drop_eq_nil_of_le hb]
    simp only [List.zipIdx_nil, List.map_nil, List.filter_nil, List.append_nil, List.filter_eq_nil_iff]
    rintro ⟨v, i⟩ hx
    have := List.mem_zipIdx hx
    simp at this ⊢; omega

omit [LinearOrder K] in
theorem entriesFor_column_ne (c c' : Nat) (vals : List (Fl K)) (ss qs : Nat) (left : Bool) (h : c' ≠ c) :
    entriesFor ((Delivery.column c vals).cells ss qs) ((c' + ss : Nat) : Int) left = [] := by
  unfold entriesFor Delivery.cells
  rw [List.map_eq_nil_iff, List.filter_eq_nil_iff]
  intro x hx
  obtain ⟨y, -, rfl⟩ := List.mem_map.mp hx
  simp; omega

omit [LinearOrder K] in
theorem entriesFor_column_left (c : Nat) (vals : List (Fl K)) (ss qs : Nat) :
    entriesFor ((Delivery.column c vals).cells ss qs) ((c + ss : Nat) : Int) true =
      (vals.take (c + 1 + ss - qs)).zipIdx.map fun x : Fl K × Nat => (x.1, ((x.2 + qs : Nat) : Int)) := by
  have hpred : ∀ x : Fl K × Nat, (decide True &&
      (decide ((((x.2 + qs : Nat) : Int)) ≤ ((c + ss : Nat) : Int)) == true)) = decide (x.2 < c + 1 + ss - qs) := by
    intro x
    simp only [decide_true, Bool.true_and, beq_true, decide_eq_decide]; omega
  unfold entriesFor Delivery.cells
  rw [List.filter_map, List.map_map, ← filter_zipIdx_lt]
  simp only [Function.comp_def]
  rw [List.filter_congr fun x _ => hpred x]

omit [LinearOrder K] in
theorem entriesFor_column_right (c : Nat) (vals : List (Fl K)) (ss qs : Nat) :
    entriesFor ((Delivery.column c vals).cells ss qs) ((c + ss : Nat) : Int) false =
      (vals.drop (c + 1 + ss - qs)).zipIdx.map fun x : Fl K × Nat => (x.1, ((x.2 + (c + 1 + ss - qs + qs) : Nat) : Int)) := by
  have hpred : ∀ x : Fl K × Nat, (decide True &&
      (decide ((((x.2 + qs : Nat) : Int)) ≤ ((c + ss : Nat) : Int)) == false)) = decide (c + 1 + ss - qs ≤ x.2) := by
    intro x
    simp only [decide_true, Bool.true_and, beq_false, ← decide_not, decide_eq_decide]; omega
  unfold entriesFor Delivery.cells
  rw [List.filter_map, List.map_map]
  simp only [Function.comp_def]
  rw [List.filter_congr fun x _ => hpred x, filter_zipIdx_ge, List.map_map]
  simp only [Function.comp_def, Nat.add_assoc]

/-! ### Writing into a profile -/

/-- A profile holds the pairs `f c`. -/
def Holds (w : Nat) (f : Nat → Fl K × Int) (mp : List (Fl K)) (pi : List Int) : Prop :=
  mp = (List.range w).map (fun c => (f c).1) ∧ pi = (List.range w).map (fun c => (f c).2)

omit [LinearOrder K] in
theorem Holds.len {w : Nat} {f : Nat → Fl K × Int} {mp : List (Fl K)} {pi : List Int} (h : Holds w f mp pi) : mp.length = w ∧ pi.length = w := by
  rw [h.1, h.2]; simp

omit [LinearOrder K] in
theorem Holds.get {w : Nat} {f : Nat → Fl K × Int} {mp : List (Fl K)} {pi : List Int} (h : Holds w f mp pi) {c : Nat} (hc : c < w) :
    mp[c]? = some (f c).1 ∧ pi[c]? = some (f c).2 := by
  rw [h.1, h.2]; simp [hc]

omit [LinearOrder K] in
theorem Holds.of_get {w : Nat} {f : Nat → Fl K × Int} {mp : List (Fl K)} {pi : List Int} (h1 : mp.length = w) (h2 : pi.length = w)
    (h : ∀ c < w, mp[c]? = some (f c).1 ∧ pi[c]? = some (f c).2) : Holds w f mp pi := by
  constructor
  · apply List.ext_getElem?
    intro c
    rcases Nat.lt_or_ge c w with hc | hc
    · rw [(h c hc).1]; simp [hc]
    · simp [h1, hc]
  · apply List.ext_getElem?
    intro c
    rcases Nat.lt_or_ge c w with hc | hc
    · rw [(h c hc).2]; simp [hc]
    · simp [h2, hc]

theorem updateProfile_ok (vals : List (Fl K)) (idx : List Int) (mp : List (Fl K)) (pi : List Int) (n : Nat) (hv : vals.length = n)
    (hi : idx.length = n) (hm : mp.length = n) (hp : pi.length = n) :
    ∃ r : List (Fl K) × List Int, updateProfile vals idx mp pi = .ok r ∧ r.1.length = n ∧ r.2.length = n ∧
      ∀ (k : Nat) (v : Fl K) (i : Int) (m : Fl K) (p : Int), vals[k]? = some v → idx[k]? = some i → mp[k]? = some m → pi[k]? = some p →
        r.1[k]? = some (pick (m, p) (v, i)).1 ∧ r.2[k]? = some (pick (m, p) (v, i)).2 := by
  refine ⟨(List.zipWith (fun (x : Bool × Fl K) m => if x.1 then x.2 else m) ((List.zipWith Fl.ltF vals mp).zip vals) mp,
      List.zipWith (fun (x : Bool × Int) p => if x.1 then x.2 else p) ((List.zipWith Fl.ltF vals mp).zip idx) pi), ?_, ?_, ?_, ?_⟩
  · unfold updateProfile npZip
    rw [if_pos (by omega)]
    simp only [bind, Except.bind, pure, Except.pure]
    rw [if_pos (by simp; omega)]
  · simp; omega
  · simp; omega
  · intro k v i m p h1 h2 h3 h4
    constructor <;>
    · simp only [List.getElem?_zipWith, List.zip, h1, h2, h3, h4, pick]
      split <;> simp_all

/-- One running-minimum update of a slice of a profile. -/
theorem Holds.update {w : Nat} {f f' : Nat → Fl K × Int} {mp : List (Fl K)} {pi : List Int} (h : Holds w f mp pi)
    (vals : List (Fl K)) (idx : List Int) (a n : Nat) (hv : vals.length = n) (hi : idx.length = n) (ha : a + n ≤ w)
    (hin : ∀ (k : Nat) (v : Fl K) (i : Int), vals[k]? = some v → idx[k]? = some i → f' (a + k) = pick (f (a + k)) (v, i))
    (hout : ∀ c < w, ¬ (a ≤ c ∧ c < a + n) → f' c = f c) :
    ∃ r : List (Fl K) × List Int, updateProfile vals idx (pySlice mp a (a + n)) (pySlice pi a (a + n)) = .ok r ∧
      ∃ mp' pi', pyAssign mp a (a + n) r.1 = .ok mp' ∧ pyAssign pi a (a + n) r.2 = .ok pi' ∧ Holds w f' mp' pi' := by
  obtain ⟨hl1, hl2⟩ := h.len
  obtain ⟨r, hr, h1, h2, hget⟩ := updateProfile_ok vals idx (pySlice mp a (a + n)) (pySlice pi a (a + n)) n hv hi
    (by rw [pySlice_nat_add]; simp; omega) (by rw [pySlice_nat_add]; simp; omega)
  refine ⟨r, hr, _, _, pyAssign_ok_add _ _ _ _ h1 (by omega), pyAssign_ok_add _ _ _ _ h2 (by omega), ?_⟩
  refine Holds.of_get (by simp; omega) (by simp; omega) fun c hc => ?_
  obtain ⟨g1, g2⟩ := h.get hc
  by_cases hin' : a ≤ c ∧ c < a + n
  · obtain ⟨k, rfl⟩ : ∃ k, c = a + k := ⟨c - a, by omega⟩
    have hk : k < n := by omega
    obtain ⟨v, hv'⟩ : ∃ v, vals[k]? = some v := ⟨vals[k], by simp [hv, hk]⟩
    obtain ⟨i, hi'⟩ : ∃ i, idx[k]? = some i := ⟨idx[k], by simp [hi, hk]⟩
    have := hget k v i (f (a + k)).1 (f (a + k)).2 hv' hi' (by rw [pySlice_nat_add]; simp [hk, g1]) (by rw [pySlice_nat_add]; simp [hk, g2])
    rw [hin k v i hv' hi', ← this.1, ← this.2]
    constructor
    · rw [List.getElem?_append_left (by simp; omega), List.getElem?_append_right (by simp)]
      simp; congr 1; omega
    · rw [List.getElem?_append_left (by simp; omega), List.getElem?_append_right (by simp)]
      simp; congr 1; omega
  · rw [hout c hc hin', ← g1, ← g2]
    constructor <;>
    · simp only [List.getElem?_append, List.getElem?_take, List.getElem?_drop, List.length_append, List.length_take]
      grind

omit [LinearOrder K] in
/-- One assignment to a position of a profile. -/
theorem Holds.set {w : Nat} {f f' : Nat → Fl K × Int} {mp : List (Fl K)} {pi : List Int} (h : Holds w f mp pi) (c : Nat) (hc : c < w)
    (x : Fl K × Int) (hin : f' c = x) (hout : ∀ c' < w, c' ≠ c → f' c' = f c') :
    ∃ mp' pi', pySet mp (c : Int) x.1 = .ok mp' ∧ pySet pi (c : Int) x.2 = .ok pi' ∧ Holds w f' mp' pi' := by
  obtain ⟨hl1, hl2⟩ := h.len
  refine ⟨mp.set c x.1, pi.set c x.2, by rw [pySet_nat, if_pos (by omega)], by rw [pySet_nat, if_pos (by omega)], ?_⟩
  refine Holds.of_get (by simpa using hl1) (by simpa using hl2) fun c' hc' => ?_
  obtain ⟨g1, g2⟩ := h.get hc'
  by_cases he : c' = c
  · subst he
    rw [hin]
    simp [hl1, hl2, hc']
  · rw [hout c' hc' he, ← g1, ← g2]
    constructor <;> rw [List.getElem?_set_ne (Ne.symm he)]

omit [LinearOrder K] in
theorem Holds.congr {w : Nat} {f f' : Nat → Fl K × Int} {mp : List (Fl K)} {pi : List Int} (h : Holds w f mp pi) (he : ∀ c < w, f' c = f c) :
    Holds w f' mp pi := by
  obtain ⟨hl1, hl2⟩ := h.len
  exact Holds.of_get hl1 hl2 fun c hc => by rw [he c hc]; exact h.get hc

/-- The row numbers of a diagonal. -/
theorem diagRows_ok (range : List Int) (R qs : Nat) (hr : range = (List.range R).map fun i : Nat => ((i + qs : Nat) : Int)) (d : Int) (n : Nat)
    (h : (-d).toNat + n ≤ R) :
    (diagRows range d n).length = n ∧ ∀ (k : Nat) (i : Int), (diagRows range d n)[k]? = some i → i = (((-d).toNat + k + qs : Nat) : Int) := by
  have key : diagRows range d n = (range.drop (-d).toNat).take n := by
    unfold diagRows
    split
    · rw [pyTo_nat, show (-d).toNat = 0 by omega]; simp
    · have : -d = (((-d).toNat : Nat) : Int) := by omega
      conv_lhs => rw [this]
      rw [pySlice_nat_add]
  rw [key, hr]
  constructor
  · simp; omega
  · intro k i hk
    simp only [List.getElem?_take, List.getElem?_drop, List.getElem?_map] at hk
    split at hk
    · rename_i hkn
      rw [List.getElem?_range (by omega)] at hk
      simp at hk
      rw [← hk]; push_cast; omega
    · cases hk

theorem diagCols_ok (d : Int) (n : Nat) : diagCols d n = ((d.toNat : Int), (d.toNat : Int) + (n : Int)) := by
  unfold diagCols
  split
  · rw [Int.toNat_of_nonneg (by omega)]
  · rw [show d.toNat = 0 by omega]; simp

end Verif
