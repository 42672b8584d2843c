import Verif.Lemmas.ReservoirMixed
import Verif.Props.BatchCounts

/-!
# What a `MatrixProfileLRReservoir` draws from in a batch calculation
-/

namespace Verif
open Spec
variable {α K : Type}

/-- How often the distance of the pair (`r`, `c`) was delivered since column `c` was calculated for the last time (that time included), starting from `n`:
a calculated column starts anew, a diagonal adds one, in a self-join another one for its mirror image. -/
def Spec.BSt.times (selfJoin : Bool) (order : List Int) (r c : Nat) : BSt → List BOp → Nat → Nat
  | _, [], n => n
  | u, .columns a e :: us, n => BSt.times selfJoin order r c (u.step (.columns a e)) us (if a ≤ c ∧ c < e then 1 else n)
  | u, .diagonals k :: us, n => BSt.times selfJoin order r c (u.step (.diagonals k)) us
      (n + (if (c : Int) - r ∈ (order.take k).drop u.next then 1 else 0) + if selfJoin = true ∧ (r : Int) - c ∈ (order.take k).drop u.next then 1 else 0)

/-- The values for one position of one side since its column was delivered for the last time. -/
def selStep (c : Nat) (left : Bool) (sel : List (Fl K × Int)) (d : Delivery K) : List (Fl K × Int) :=
  match d with
  | .column c' vals =>
    if c' = c ∧ entriesFor ((Delivery.column c' vals).cells 0 0) c left ≠ [] then entriesFor ((Delivery.column c' vals).cells 0 0) c left else sel
  | d => sel ++ entriesFor (d.cells 0 0) c left

section
variable [LinearOrder K]

/-- The candidates are those of `sel`. -/
structure Ties.Of (T : Ties K) (sel : List (Fl K × Int)) : Prop where
  v : T.v = (best sel).1
  fin : ∀ y, T.v = .fin y → T.rows = (sel.filter fun x => decide (x.1 = T.v)).map Prod.snd
  rows : ∀ i ∈ T.rows, (i = -1 ∧ T.n = 0) ∨ ∃ x ∈ sel, x.2 = i

theorem Ties.Of.init : (Ties.init : Ties K).Of [] := ⟨rfl, fun y h => (by cases h), by simp [Ties.init]⟩

theorem Ties.Of.add {T : Ties K} {sel : List (Fl K × Int)} (h : T.Of sel) (x : Fl K × Int) : (T.add x).Of (sel ++ [x]) := by
  have hb := best_isBest sel
  have hbest : (best (sel ++ [x])).1 = if Fl.ltF x.1 T.v then x.1 else T.v := by
    rw [best_snoc, pick, ← h.v]
    split
    · rfl
    · exact h.v.symm
  unfold Ties.add
  split
  · rename_i hlt
    refine ⟨by rw [hbest, if_pos hlt], fun y hy => ?_, ?_⟩
    · rw [Fl.ltF_iff] at hlt
      have : sel.filter (fun z => decide (z.1 = x.1)) = [] := by
        rw [List.filter_eq_nil_iff]
        intro z hz hze
        rw [decide_eq_true_eq] at hze
        rcases hb.lower z hz with h1 | h1
        · rw [hze] at h1
          simp only at hy
          rw [h1] at hy
          cases hy
        · rw [← h.v, hze] at h1
          exact absurd (lt_of_le_of_lt h1 hlt.1) (lt_irrefl _)
      simp [List.filter_append, this]
    · simp
  · rename_i hlt
    split
    · rename_i heq
      rw [Bool.and_eq_true, Fl.eqF_iff] at heq
      refine ⟨by rw [hbest, if_neg hlt], fun y hy => ?_, ?_⟩
      · simp only at hy ⊢
        rw [List.filter_append, List.map_append, ← h.fin y hy]
        simp [heq.1.1]
      · intro i hi
        rcases List.mem_append.mp hi with hi | hi
        · right
          obtain ⟨y, hy⟩ := (Fl.isFinite_iff _).mp heq.2
          rw [h.fin y (by rw [← heq.1.1, hy])] at hi
          obtain ⟨z, hz, rfl⟩ := List.mem_map.mp hi
          exact ⟨z, List.mem_append_left _ (List.mem_filter.mp hz).1, rfl⟩
        · right
          exact ⟨x, by simp, (List.mem_singleton.mp hi).symm⟩
    · rename_i heq
      refine ⟨by rw [hbest, if_neg hlt], fun y hy => ?_, fun i hi => (h.rows i hi).imp_right fun ⟨z, hz, e⟩ => ⟨z, List.mem_append_left _ hz, e⟩⟩
      rw [List.filter_append, List.map_append, ← h.fin y hy]
      have : ¬ x.1 = T.v := by
        intro e
        apply heq
        rw [Bool.and_eq_true, Fl.eqF_iff, Fl.isFinite_iff]
        exact ⟨⟨e, by rw [e, hy]; simp⟩, y, by rw [e, hy]⟩
      simp [this]

theorem Ties.Of.foldl {T : Ties K} {sel : List (Fl K × Int)} (h : T.Of sel) (l : List (Fl K × Int)) : (l.foldl Ties.add T).Of (sel ++ l) := by
  induction l generalizing T sel with
  | nil => simpa using h
  | cons x xs ih => simpa using ih (h.add x)

theorem Ties.Of.column (sel : List (Fl K × Int)) : (Ties.ofColumn sel).Of sel := by
  refine ⟨rfl, fun y _ => rfl, fun i hi => .inr ?_⟩
  obtain ⟨z, hz, rfl⟩ := List.mem_map.mp hi
  exact ⟨z, (List.mem_filter.mp hz).1, rfl⟩

theorem Ties.Of.step {T : Ties K} {sel : List (Fl K × Int)} (h : T.Of sel) (c : Nat) (left : Bool) (d : Delivery K) : (T.step c left d).Of (selStep c left sel d) := by
  cases d with
  | column c' vals =>
    unfold Ties.step selStep
    simp only
    split
    · exact Ties.Of.column _
    · exact h
  | diag d vals => exact h.foldl _
  | shiftSeries n => exact h.foldl _
  | shiftQuery n => exact h.foldl _

theorem Ties.Of.steps {T : Ties K} {sel : List (Fl K × Int)} (h : T.Of sel) (c : Nat) (left : Bool) (ds : List (Delivery K)) :
    (ds.foldl (Ties.step c left) T).Of (ds.foldl (selStep c left) sel) := by
  induction ds generalizing T sel with
  | nil => exact h
  | cons d ds ih => exact ih (h.step c left d)

end

theorem cell_of {A : Nat → Nat → Fl K} {h w : Nat} {d : Delivery K} (hv : d.Valid h w) (ho : d.Of A h) (c : Nat) (left : Bool) :
    ∀ x ∈ entriesFor (d.cells 0 0) (c : Int) left, ∃ r : Nat, r < h ∧ x.2 = r ∧ decide (r ≤ c) = left ∧ x.1 = A r c := by
  rintro ⟨v, i⟩ hx
  obtain ⟨hm, hs⟩ := (mem_entriesFor _ _ _ _ _).mp hx
  cases d with
  | diag d vals =>
    obtain ⟨⟨u, k⟩, hk, e⟩ := List.mem_map.mp hm
    rw [List.mem_zipIdx_iff_getElem?] at hk
    simp only [Cell.mk.injEq] at e hk
    have hl := (List.getElem?_eq_some_iff.mp hk).1
    obtain ⟨e1, e2, e3⟩ := e
    refine ⟨(-d).toNat + k, by have := hv.1; omega, by omega, ?_, ?_⟩
    · rw [← hs, decide_eq_decide]; omega
    · show v = _
      rw [← e3, ho k u hk]
      congr 1
      omega
  | column c' vals =>
    obtain ⟨⟨u, k⟩, hk, e⟩ := List.mem_map.mp hm
    rw [List.mem_zipIdx_iff_getElem?] at hk
    simp only [Cell.mk.injEq] at e hk
    have hl := (List.getElem?_eq_some_iff.mp hk).1
    obtain ⟨e1, e2, e3⟩ := e
    have ho' : vals = (List.range h).map fun r => A r c' := ho
    have hlen : vals.length = h := by rw [ho']; simp
    refine ⟨k, by omega, by omega, ?_, ?_⟩
    · rw [← hs, decide_eq_decide]; omega
    · show v = _
      rw [← e3]
      rw [ho', List.getElem?_map, List.getElem?_range (by omega)] at hk
      have hc : c' = c := by omega
      rw [← hc]
      exact (Option.some.inj hk).symm
  | shiftSeries n => exact ho.elim
  | shiftQuery n => exact ho.elim

theorem selSteps_of {A : Nat → Nat → Fl K} {h w : Nat} (c : Nat) (left : Bool) (ds : List (Delivery K)) (hv : ∀ d ∈ ds, d.Valid h w) (ho : ∀ d ∈ ds, d.Of A h)
    (sel : List (Fl K × Int)) (hsel : ∀ x ∈ sel, ∃ r : Nat, r < h ∧ x.2 = r ∧ decide (r ≤ c) = left ∧ x.1 = A r c) :
    ∀ x ∈ ds.foldl (selStep c left) sel, ∃ r : Nat, r < h ∧ x.2 = r ∧ decide (r ≤ c) = left ∧ x.1 = A r c := by
  induction ds generalizing sel with
  | nil => exact hsel
  | cons d ds ih =>
    refine ih (fun d hd => hv d (by simp [hd])) (fun d hd => ho d (by simp [hd])) _ ?_
    have hd := cell_of (hv d (by simp)) (ho d (by simp)) c left
    have happ : ∀ x ∈ sel ++ entriesFor (d.cells 0 0) (c : Int) left, ∃ r : Nat, r < h ∧ x.2 = r ∧ decide (r ≤ c) = left ∧ x.1 = A r c := by
      intro x hx
      exact (List.mem_append.mp hx).elim (hsel x) (hd x)
    cases d with
    | column c' vals =>
      unfold selStep
      simp only
      split
      · exact hd
      · exact hsel
    | diag d vals => exact happ
    | shiftSeries n => exact happ
    | shiftQuery n => exact happ

theorem diag_count (A : Nat → Nat → Fl K) {h w : Nat} (d : Int) {r c : Nat} (hr : r < h) (hc : c < w) :
    (entriesFor ((Delivery.diag d ((List.range (min (h - (-d).toNat) (w - d.toNat))).map fun k => A ((-d).toNat + k) (d.toNat + k))).cells 0 0) (c : Int)
      (decide (r ≤ c))).countP (fun x => decide (x.2 = (r : Int))) = if (c : Int) - r = d then 1 else 0 := by
  have := entriesFor_diag d ((List.range (min (h - (-d).toNat) (w - d.toNat))).map fun k => A ((-d).toNat + k) (d.toNat + k)) 0 0 c (decide (r ≤ c))
  rw [Nat.add_zero] at this
  rw [this]
  by_cases hd : (c : Int) - r = d
  · rw [if_pos hd, if_pos ⟨by omega, by rw [decide_eq_decide]; omega⟩, List.getElem?_map, List.getElem?_range (by omega)]
    simp only [Option.map_some, Option.toList_some, List.countP_cons, List.countP_nil]
    rw [if_pos (by rw [decide_eq_true_eq]; omega)]
  · rw [if_neg hd]
    split
    · rename_i h1
      rw [List.getElem?_map]
      cases hk : (List.range (min (h - (-d).toNat) (w - d.toNat)))[c - d.toNat]? with
      | none => rfl
      | some k =>
        simp only [Option.map_some, Option.toList_some, List.countP_cons, List.countP_nil]
        rw [if_neg (by rw [decide_eq_true_eq]; omega)]
    · rfl

theorem diags_count (A : Nat → Nat → Fl K) {h w : Nat} (dl : List Int) {r c : Nat} (hr : r < h) (hc : c < w) (sel : List (Fl K × Int)) :
    ((diagsOf A h w dl).foldl (selStep c (decide (r ≤ c))) sel).countP (fun x => decide (x.2 = (r : Int))) =
      sel.countP (fun x => decide (x.2 = (r : Int))) + dl.countP fun d => decide ((c : Int) - r = d) := by
  induction dl generalizing sel with
  | nil => rfl
  | cons d dl ih =>
    show ((diagsOf A h w dl).foldl (selStep c (decide (r ≤ c))) (sel ++ _)).countP _ = _
    rw [ih, List.countP_append, diag_count A d hr hc, List.countP_cons]
    simp only [decide_eq_true_eq]
    omega

theorem column_count (A : Nat → Nat → Fl K) {h : Nat} {r c : Nat} (hr : r < h) :
    entriesFor ((Delivery.column c ((List.range h).map fun r => A r c)).cells 0 0) (c : Int) (decide (r ≤ c)) ≠ [] ∧
    (entriesFor ((Delivery.column c ((List.range h).map fun r => A r c)).cells 0 0) (c : Int) (decide (r ≤ c))).countP (fun x => decide (x.2 = (r : Int))) = 1 := by
  have h1 : (entriesFor ((Delivery.column c ((List.range h).map fun r => A r c)).cells 0 0) (c : Int) (decide (r ≤ c))).countP (fun x => decide (x.2 = (r : Int))) = 1 := by
    unfold entriesFor Delivery.cells
    rw [List.countP_map, List.countP_filter, List.countP_map]
    have e : ∀ (l : List (Fl K)) (k : Nat), (l.zipIdx k).countP (fun x => decide (x.2 = r)) = if k ≤ r ∧ r < k + l.length then 1 else 0 := by
      intro l
      induction l with
      | nil => intro k; simp
      | cons a l ih =>
        intro k
        rw [List.zipIdx_cons, List.countP_cons, ih, List.length_cons]
        simp only [decide_eq_true_eq]
        split <;> split <;> split <;> omega
    refine Eq.trans (List.countP_congr ?_) ((e _ 0).trans (if_pos (by simp [hr])))
    intro x _
    simp only [Function.comp_apply, Bool.and_eq_true, decide_eq_true_eq, beq_iff_eq, decide_eq_decide]
    omega
  exact ⟨fun h => absurd h1 (by rw [h]; simp), h1⟩

theorem columns_count (A : Nat → Nat → Fl K) {h : Nat} {r c : Nat} (hr : r < h) (a : Nat) (l : List Nat) (sel : List (Fl K × Int)) :
    ((l.map fun i => Delivery.column (a + i) ((List.range h).map fun r => A r (a + i))).foldl (selStep c (decide (r ≤ c))) sel).countP (fun x => decide (x.2 = (r : Int))) =
      if ∃ i ∈ l, a + i = c then 1 else sel.countP fun x => decide (x.2 = (r : Int)) := by
  induction l generalizing sel with
  | nil => simp
  | cons i l ih =>
    rw [List.map_cons, List.foldl_cons, ih]
    by_cases h1 : ∃ j ∈ l, a + j = c
    · obtain ⟨j, hj, e⟩ := h1
      rw [if_pos ⟨j, hj, e⟩, if_pos ⟨j, by simp [hj], e⟩]
    · rw [if_neg h1]
      by_cases hi : a + i = c
      · rw [if_pos ⟨i, by simp, hi⟩]
        subst hi
        obtain ⟨c1, c2⟩ := column_count A (c := a + i) hr
        show List.countP _ (if _ then _ else _) = 1
        rw [if_pos ⟨rfl, c1⟩, c2]
      · rw [if_neg]
        · show List.countP _ (if _ then _ else _) = _
          rw [if_neg fun h => hi h.1]
        · rintro ⟨j, hj, e⟩
          rcases List.mem_cons.mp hj with rfl | hj
          · exact hi e
          · exact h1 ⟨j, hj, e⟩

theorem countP_eq_nodup (l : List Int) (hl : l.Nodup) (x : Int) : l.countP (fun d => decide (x = d)) = if x ∈ l then 1 else 0 := by
  have : l.countP (fun d => decide (x = d)) = l.count x := by
    rw [List.count]
    apply List.countP_congr
    intro d _
    rw [decide_eq_true_eq, beq_iff_eq]
    exact eq_comm
  rw [this]
  split
  · exact List.count_eq_one_of_mem hl ‹_›
  · exact List.count_eq_zero_of_not_mem ‹_›

/-- How often every row occurs. -/
theorem times_ok (m : Nat) (selfJoin : Bool) (b : Int) (hb : -1 ≤ b) (order : List Int) (hnd : order.Nodup) (D : List α → List α → Fl K) (s q : List α)
    (hs : m ≤ s.length) (hq : m ≤ q.length)
    (ho : OrderOk m selfJoin b order s.length q.length) (hself : selfJoin = true → q = s) (hnot : selfJoin = false → b = -1)
    (hsym : selfJoin = true → ∀ x y, D x y = D y x) {r c : Nat} (hr : r < q.length + 1 - m) (hc : c < s.length + 1 - m) (us : List BOp) :
    ∀ (u : BSt) (sel : List (Fl K × Int)), ((allDeliveries m selfJoin b order D s q u us).foldl (selStep c (decide (r ≤ c))) sel).countP (fun x => decide (x.2 = (r : Int))) =
      u.times selfJoin order r c us (sel.countP fun x => decide (x.2 = (r : Int))) := by
  induction us with
  | nil => intro u sel; rfl
  | cons op us ih =>
    intro u sel
    rw [allDeliveries, List.foldl_append, ih]
    cases op with
    | columns a e =>
      rw [BSt.times, batchDeliveries, columns_count (pairValue D m b s q) hr a]
      congr 1
      by_cases h : a ≤ c ∧ c < e
      · rw [if_pos h, if_pos ⟨c - a, by rw [List.mem_range]; omega, by omega⟩]
      · rw [if_neg h, if_neg]
        rintro ⟨i, hi, e⟩
        rw [List.mem_range] at hi
        omega
    | diagonals n =>
      rw [BSt.times, batch_diagsOf m selfJoin b hb order D s q hs hq ho hself hnot hsym, diags_count _ _ hr hc, countP_mirror]
      congr 1
      have hxs : ((order.take n).drop u.next).Nodup := (hnd.sublist (List.take_sublist _ _)).sublist (List.drop_sublist _ _)
      rw [countP_eq_nodup _ hxs, Nat.add_assoc]
      congr 2
      cases selfJoin with
      | false => simp
      | true =>
        simp only [if_true, true_and]
        rw [List.countP_map, ← countP_eq_nodup _ hxs]
        apply List.countP_congr
        intro d _
        simp only [Function.comp_apply, decide_eq_true_eq]
        omega

theorem times_of_pos {selfJoin : Bool} {b : Int} {order : List Int} {r c : Nat} (us : List BOp) : ∀ (u : BSt) (n : Nat),
    (0 < n → 0 < u.times selfJoin order r c us n) ∧
    (u.covered selfJoin b order us r c → 0 < u.times selfJoin order r c us n) ∧
    (0 < u.times selfJoin order r c us n → 0 < n ∨ u.covered selfJoin b order us r c ∨ ((r : Int) - c ≤ b ∧ (c : Int) - r ≤ b)) := by
  induction us with
  | nil => exact fun u n => ⟨id, fun h => h.elim, fun h => .inl h⟩
  | cons op us ih =>
    intro u n
    cases op with
    | columns a e =>
      obtain ⟨h1, h2, h3⟩ := ih (u.step (.columns a e)) (if a ≤ c ∧ c < e then 1 else n)
      rw [BSt.times]
      refine ⟨fun h => h1 (by split <;> omega), ?_, ?_⟩
      · rintro (⟨g1, g2, -⟩ | h)
        · exact h1 (by rw [if_pos ⟨g1, g2⟩]; exact Nat.one_pos)
        · exact h2 h
      · intro h
        rcases h3 h with h | h | h
        · by_cases hc : a ≤ c ∧ c < e
          · by_cases hb : (r : Int) - c ≤ b ∧ (c : Int) - r ≤ b
            · exact .inr (.inr hb)
            · exact .inr (.inl (.inl ⟨hc.1, hc.2, hb⟩))
          · rw [if_neg hc] at h
            exact .inl h
        · exact .inr (.inl (.inr h))
        · exact .inr (.inr h)
    | diagonals k =>
      obtain ⟨h1, h2, h3⟩ := ih (u.step (.diagonals k)) (n + (if (c : Int) - r ∈ (order.take k).drop u.next then 1 else 0) +
        if selfJoin = true ∧ (r : Int) - c ∈ (order.take k).drop u.next then 1 else 0)
      rw [BSt.times]
      refine ⟨fun h => h1 (by omega), ?_, ?_⟩
      · rintro (h | h)
        · apply h1
          rcases h with h | h
          · rw [if_pos h]; omega
          · rw [if_pos h]; omega
        · exact h2 h
      · intro h
        rcases h3 h with h | h | h
        · by_cases g1 : (c : Int) - r ∈ (order.take k).drop u.next
          · exact .inr (.inl (.inl (.inl g1)))
          · by_cases g2 : selfJoin = true ∧ (r : Int) - c ∈ (order.take k).drop u.next
            · exact .inr (.inl (.inl (.inr g2)))
            · rw [if_neg g1, if_neg g2] at h
              exact .inl h
        · exact .inr (.inl (.inr h))
        · exact .inr (.inr h)

section
variable [LinearOrder K]

theorem Ties.mean_idx (T : Ties K) (i : Int) : (T.mean fun e => if e.idx = i then 1 else 0) = (T.rows.countP fun j => decide (j = i) : Nat) / (T.rows.length : ℚ) := by
  unfold Ties.mean
  rw [sum_indicator]

/-- Without a value below `+inf`: nothing drawn, or one of the rows of the last column. -/
def Ties.Empty (T : Ties K) (R : List Int) (n : Nat) : Prop := T.v = .pinf → T.rows = R ∧ T.n = n

theorem Ties.Empty.foldl {T : Ties K} {R : List Int} {n : Nat} (h : T.Empty R n) (l : List (Fl K × Int)) : (l.foldl Ties.add T).Empty R n := by
  induction l generalizing T with
  | nil => exact h
  | cons x xs ih =>
    refine ih ?_
    unfold Ties.add
    split
    · rename_i hlt
      rw [Fl.ltF_iff] at hlt
      intro hv
      simp only at hv
      rw [hv] at hlt
      exact absurd hlt.1 (not_lt.mpr ((Fl.le_pinf_iff _).mpr hlt.2))
    · split
      · rename_i heq
        rw [Bool.and_eq_true, Fl.eqF_iff, Fl.isFinite_iff] at heq
        obtain ⟨⟨h1, -⟩, y, h2⟩ := heq
        intro hv
        simp only at hv
        rw [h2, hv] at h1
        cases h1
      · exact h

theorem Ties.Empty.column {sel : List (Fl K × Int)} (hn : ∀ x ∈ sel, x.1 ≠ .nan) : (Ties.ofColumn sel).Empty (sel.map Prod.snd) sel.length := by
  intro hv
  have hv : (best sel).1 = .pinf := hv
  have : sel.filter (fun x => decide (x.1 = (best sel).1)) = sel := by
    rw [List.filter_eq_self]
    intro x hx
    rw [decide_eq_true_eq, hv]
    rcases (best_isBest sel).lower x hx with h | h
    · exact absurd h (hn x hx)
    · rw [hv] at h
      exact le_antisymm ((Fl.le_pinf_iff _).mpr (hn x hx)) h
  unfold Ties.ofColumn
  rw [this]
  exact ⟨rfl, rfl⟩

open Classical in
theorem Ties.Empty.steps (c : Nat) (left : Bool) (E : List (Fl K × Int)) (hE : ∀ x ∈ E, x.1 ≠ .nan) (ds : List (Delivery K))
    (hds : ∀ vals, .column c vals ∈ ds → entriesFor ((Delivery.column c vals).cells 0 0) c left = E) : ∀ {T : Ties K} {R : List Int} {n : Nat}, T.Empty R n →
      (ds.foldl (Ties.step c left) T).Empty (if E ≠ [] ∧ ∃ vals, .column c vals ∈ ds then E.map Prod.snd else R) (if E ≠ [] ∧ ∃ vals, .column c vals ∈ ds then E.length else n) := by
  induction ds with
  | nil =>
    intro T R n h
    rw [if_neg (by simp), if_neg (by simp)]
    exact h
  | cons d ds ih =>
    intro T R n h
    have ih := fun {R} {n} => ih (fun vals hv => hds vals (by simp [hv])) (T := T.step c left d) (R := R) (n := n)
    have keep : (∀ vals, d ≠ .column c vals ∨ E = []) → (T.step c left d).Empty R n → (ds.foldl (Ties.step c left) (T.step c left d)).Empty
        (if E ≠ [] ∧ ∃ vals, .column c vals ∈ d :: ds then E.map Prod.snd else R) (if E ≠ [] ∧ ∃ vals, .column c vals ∈ d :: ds then E.length else n) := by
      intro hd hT
      have e : (E ≠ [] ∧ ∃ vals, .column c vals ∈ d :: ds) ↔ (E ≠ [] ∧ ∃ vals, .column c vals ∈ ds) := by
        constructor
        · rintro ⟨h1, vals, h2⟩
          rcases List.mem_cons.mp h2 with h2 | h2
          · rcases hd vals with h3 | h3
            · exact absurd h2.symm h3
            · exact absurd h3 h1
          · exact ⟨h1, vals, h2⟩
        · rintro ⟨h1, vals, h2⟩
          exact ⟨h1, vals, by simp [h2]⟩
      simp only [e]
      exact ih hT
    cases d with
    | diag d vals => exact keep (by simp) (h.foldl _)
    | shiftSeries k => exact keep (by simp) (h.foldl _)
    | shiftQuery k => exact keep (by simp) (h.foldl _)
    | column c' vals =>
      by_cases hc : c' = c
      · subst hc
        have e := hds vals (by simp)
        by_cases hne : E = []
        · refine keep (fun _ => .inr hne) ?_
          unfold Ties.step
          simp only
          rw [if_neg (by rw [e]; exact fun h => h.2 hne)]
          exact h
        · have h1 : (T.step c' left (.column c' vals)).Empty (E.map Prod.snd) E.length := by
            unfold Ties.step
            simp only
            rw [if_pos (by rw [e]; exact ⟨trivial, hne⟩), e]
            exact Ties.Empty.column hE
          have h2 := ih h1
          rw [if_pos ⟨hne, vals, by simp⟩, if_pos ⟨hne, vals, by simp⟩]
          rw [List.foldl_cons]
          split at h2 <;> exact h2
      · refine keep (fun v => .inl (by simp [hc])) ?_
        unfold Ties.step
        simp only
        rw [if_neg fun h => hc h.1]
        exact h

namespace Reservoir

theorem Law.Pr_idx {t : Rnd (Reservoir K)} {h w : Nat} {T : Bool → Nat → Ties K} (hl : Law t h w T) (left : Bool) (c : Nat) (hc : c < w) (i : Int) :
    (t.E fun p => if ∃ e, (p.side left)[c]? = some e ∧ e.idx = i then (1 : ℚ) else 0) = ((T left c).rows.countP fun j => decide (j = i) : Nat) / ((T left c).rows.length : ℚ) := by
  rw [← Ties.mean_idx]
  have := hl.mean left c hc fun o => if ∃ e, o = some e ∧ e.idx = i then (1 : ℚ) else 0
  rw [this]
  congr 1
  funext e
  simp

/-- `profile_index()` at one position: the draws of both sides together. -/
theorem Law.merged {t : Rnd (Reservoir K)} {h w : Nat} {T : Bool → Nat → Ties K} (hl : Law t h w T) (c : Nat) (hc : c < w) (y : K)
    (hnan : ∀ left, (T left c).v ≠ .nan) (hle : ∀ left, .fin y ≤ (T left c).v) (hor : ∃ left, (T left c).v = .fin y) (cnt : Bool → Int → Nat) (tot : Bool → Nat)
    (hin : ∀ left, (T left c).v = .fin y → tot left = (T left c).rows.length ∧ ∀ i, cnt left i = (T left c).rows.countP fun j => decide (j = i))
    (hout : ∀ left, (T left c).v ≠ .fin y → tot left = 0 ∧ ∀ i, cnt left i = 0) (i : Int) :
    ((t.bind profileIndex).Pr fun l => l[c]? = some i) = ((cnt true i + cnt false i : Nat) : ℚ) / ((tot true + tot false : Nat) : ℚ) := by
  have hE : ((t.bind profileIndex).Pr fun l => l[c]? = some i) = t.E fun p =>
      if (T true c).v = (T false c).v ∧ (T true c).n ≠ 0 then
        ((T true c).n : ℚ) / (((T true c).n : ℚ) + ((T false c).n : ℚ)) * (if ∃ e, (p.side true)[c]? = some e ∧ e.idx = i then (1 : ℚ) else 0) +
          (1 - ((T true c).n : ℚ) / (((T true c).n : ℚ) + ((T false c).n : ℚ))) * (if ∃ e, (p.side false)[c]? = some e ∧ e.idx = i then (1 : ℚ) else 0)
      else if (T true c).v < (T false c).v then (if ∃ e, (p.side true)[c]? = some e ∧ e.idx = i then (1 : ℚ) else 0)
      else (if ∃ e, (p.side false)[c]? = some e ∧ e.idx = i then (1 : ℚ) else 0) := by
    rw [Rnd.Pr_eq, Rnd.E_bind]
    refine hl.all.E_congr fun p' hp' => ?_
    have hcl : c < p'.left.length := by rw [hp'.1.left]; exact hc
    have hcr : c < p'.right.length := by rw [hp'.1.right]; exact hc
    obtain ⟨l, hl⟩ : ∃ l, p'.left[c]? = some l := ⟨p'.left[c], by simp [hcl]⟩
    obtain ⟨r, hr⟩ : ∃ r, p'.right[c]? = some r := ⟨p'.right[c], by simp [hcr]⟩
    obtain ⟨l1, l2, -⟩ := hp'.2 true c l hl
    obtain ⟨r1, r2, -⟩ := hp'.2 false c r hr
    have hz : (p'.left.zip p'.right)[c]? = some (l, r) := by simp [List.zip, List.getElem?_zipWith, hl, hr]
    have := Rnd.E_mapR_get (fun y : REntry K × REntry K => Reservoir.mergeIdx y.1 y.2) (p'.left.zip p'.right)
      (fun a _ => (Reservoir.mergeIdx_all a.1 a.2).mono fun _ _ => trivial) c (l, r) hz (fun o => if o = some i then 1 else 0)
    rw [Reservoir.profileIndex]
    refine this.trans ?_
    simp only [Option.some.injEq]
    rw [Reservoir.mergeIdx_E, l1, l2, r1, r2]
    have hsl : (∃ e, (p'.side true)[c]? = some e ∧ e.idx = i) ↔ l.idx = i := by
      show (∃ e, p'.left[c]? = some e ∧ e.idx = i) ↔ _
      rw [hl]; simp
    have hsr : (∃ e, (p'.side false)[c]? = some e ∧ e.idx = i) ↔ r.idx = i := by
      show (∃ e, p'.right[c]? = some e ∧ e.idx = i) ↔ _
      rw [hr]; simp
    have hnl := hnan true
    have hnr := hnan false
    have hceq : ((Fl.eqF (T true c).v (T false c).v && decide ((T true c).n ≠ 0)) = true) ↔ ((T true c).v = (T false c).v ∧ (T true c).n ≠ 0) := by
      rw [Bool.and_eq_true, Fl.eqF_iff, decide_eq_true_eq]; tauto
    have hclt : (Fl.ltF (T true c).v (T false c).v = true) ↔ (T true c).v < (T false c).v := by
      rw [Fl.ltF_iff]; tauto
    simp only [hceq, hclt, hsl, hsr]
  rw [hE]
  have hpos : ∀ left, (0 : ℚ) < (T left c).rows.length := fun left => by exact_mod_cast List.length_pos_iff.mpr (hl.ok left c).rows
  by_cases hL : (T true c).v = .fin y
  · obtain ⟨l1, l2⟩ := hin true hL
    have l3 := (hl.ok true c).num y hL
    have hnum : (T true c).n ≠ 0 := by rw [l3]; exact (List.length_pos_iff.mpr (hl.ok true c).rows).ne'
    by_cases hR : (T false c).v = .fin y
    · obtain ⟨r1, r2⟩ := hin false hR
      have r3 := (hl.ok false c).num y hR
      simp only [hL, hR, hnum, ne_eq, not_false_eq_true, and_self, if_true]
      rw [Rnd.E_lin, hl.Pr_idx true c hc, hl.Pr_idx false c hc, l1, l2, r1, r2, l3, r3]
      have a1 := hpos true
      have a2 := hpos false
      push_cast
      field_simp
      ring
    · have hlt : .fin y < (T false c).v := lt_of_le_of_ne (hle false) (Ne.symm hR)
      obtain ⟨r1, r2⟩ := hout false hR
      simp only [hL, hlt.ne, false_and, if_false, hlt, if_true]
      rw [hl.Pr_idx true c hc, l1, l2, r1, r2]
      simp
  · have hR : (T false c).v = .fin y := by
      obtain ⟨left, h⟩ := hor
      cases left with
      | true => exact absurd h hL
      | false => exact h
    obtain ⟨r1, r2⟩ := hin false hR
    obtain ⟨l1, l2⟩ := hout true hL
    have hlt : .fin y < (T true c).v := lt_of_le_of_ne (hle true) (Ne.symm hL)
    simp only [hR, hL, false_and, if_false, not_lt.mpr hlt.le]
    rw [hl.Pr_idx false c hc, l1, l2, r1, r2]
    simp

theorem Law.sure {t : Rnd (Reservoir K)} {h w : Nat} {T : Bool → Nat → Ties K} (hl : Law t h w T) : t.All fun _ => True := hl.all.mono fun _ _ => trivial

end Reservoir
end

end Verif
