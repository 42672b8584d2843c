import Verif.Model.Progress
import Verif.Props.Anytime

/-!
# C97: `print_progress=True`
-/

namespace Verif
open Spec
variable {G C K : Type}

/-! ### Columns -/

/-- The line after `i + 1` of `n` columns. -/
def Spec.columnLine (clock : Nat → ℚ) (n i : Nat) : ProgLine :=
  ⟨(i + 1) / (n + 1) * 100, (clock (i + 1) - clock 0) / (i + 1) * ((n : ℚ) - i), none⟩

theorem columnProgress_ok (clock : Nat → ℚ) (start upto column : Int) (h1 : start ≤ column) (h2 : column < upto) :
    Calc.columnProgress start upto (column + 1) (clock (column + 1 - start).toNat - clock 0) =
      .ok (columnLine clock (upto - start).toNat (column - start).toNat) := by
  obtain ⟨i, rfl⟩ : ∃ i : Nat, column = start + i := ⟨(column - start).toNat, by omega⟩
  obtain ⟨n, rfl⟩ : ∃ n : Nat, upto = start + n := ⟨(upto - start).toNat, by omega⟩
  have e1 : (start + i + 1 - start).toNat = i + 1 := by omega
  have e2 : (start + n - start).toNat = n := by omega
  have e3 : (start + i - start).toNat = i := by omega
  have a1 : ((start + n + 1 - start : Int) : ℚ) = n + 1 := by push_cast; ring
  have a2 : ((start + i + 1 - start : Int) : ℚ) = i + 1 := by push_cast; ring
  have a3 : ((start + n + 1 - (start + i + 1) : Int) : ℚ) = (n : ℚ) - i := by push_cast; ring
  have p1 : (n : ℚ) + 1 ≠ 0 := by positivity
  have p2 : (i : ℚ) + 1 ≠ 0 := by positivity
  unfold Calc.columnProgress trueDiv columnLine
  simp only [e1, e2, e3, a1, a2, a3, p1, p2, if_false, bind, Except.bind, pure, Except.pure]

theorem columnLoopP_ok (ops : Ops G C K) (needed : List Nat) (maxRow : Nat) (ints : Int → Bool) (clock : Nat → ℚ) (pr : Bool) (start upto : Int) :
    ∀ (n : Nat) (column : Int) (s : Calc G C × List (List (Fl K))), start ≤ column → upto = column + n →
      (∀ e, Calc.columnLoop ops needed maxRow ints n column s = .error e → Calc.columnLoopP ops needed maxRow ints clock pr start upto n column s = .error (.raised e)) ∧
      (∀ s', Calc.columnLoop ops needed maxRow ints n column s = .ok s' → Calc.columnLoopP ops needed maxRow ints clock pr start upto n column s =
        .ok (s', if pr then (List.range (doneBefore ints n column)).map (fun i => columnLine clock (upto - start).toNat ((column - start).toNat + i)) else [])) := by
  intro n
  induction n with
  | zero =>
    intro column s h1 h2
    refine ⟨fun e h => (by cases h), fun s' h => ?_⟩
    cases h
    simp [Calc.columnLoopP, doneBefore]
  | succ n ih =>
    intro column s h1 h2
    unfold Calc.columnLoop Calc.columnLoopP doneBefore
    by_cases hi : ints column = true
    · simp only [hi, if_true]
      refine ⟨fun e h => (by cases h), fun s' h => ?_⟩
      cases h
      simp
    · simp only [hi, Bool.false_eq_true, if_false]
      cases hs : Calc.columnStep ops needed maxRow column s with
      | error e =>
        refine ⟨fun e' h => ?_, fun s' h => by cases h⟩
        cases h
        rfl
      | ok s1 =>
        obtain ⟨a1, a2⟩ := ih (column + 1) s1 (by omega) (by push_cast at h2; omega)
        have hline : printed pr (Calc.columnProgress start upto (column + 1) (clock (column + 1 - start).toNat - clock 0)) =
            .ok (if pr then [columnLine clock (upto - start).toNat (column - start).toNat] else []) := by
          cases pr
          · rfl
          · rw [columnProgress_ok clock start upto column h1 (by push_cast at h2; omega)]; rfl
        constructor
        · intro e h
          have h : Calc.columnLoop ops needed maxRow ints n (column + 1) s1 = .error e := h
          simp only [Except.mapError, bind, Except.bind, hline, a1 e h]
        · intro s' h
          have h : Calc.columnLoop ops needed maxRow ints n (column + 1) s1 = .ok s' := h
          simp only [Except.mapError, bind, Except.bind, hline, a2 s' h, pure, Except.pure]
          congr 2
          cases pr
          · rfl
          · simp only [if_true, List.range_succ_eq_map, List.map_cons, List.map_map, Nat.add_zero, List.singleton_append, List.cons.injEq, true_and]
            refine List.map_congr_left fun i _ => ?_
            simp only [Function.comp]
            congr 1
            omega

/-- **C97, columns.** `calculate_columns` of any calculator in any state: with `print_progress=True` it does the same as with `print_progress=False` (same state
afterwards, same exceptions, no `ZeroDivisionError`), and prints one line per column calculated: after `i + 1` of `n` columns the percentage `(i + 1) / (n + 1)` and the time
so far per column times `n - i`; without interrupt all `n` lines. With `print_progress=False` nothing is printed. Partial: see `C97_columns_never_complete`. -/
theorem C97_columns_partial (ops : Ops G C K) (maxCol maxRow : Int) (needed : List Nat) (ints : Int → Bool) (clock : Nat → ℚ) (start : Option PyNum) (upto : PyNum)
    (st : Calc G C) :
    (∀ e, st.calculateColumns ops maxCol maxRow needed ints start upto = .error e →
      ∀ pr, st.calculateColumnsP ops maxCol maxRow needed ints clock start upto pr = .error (.raised e)) ∧
    ∀ st', st.calculateColumns ops maxCol maxRow needed ints start upto = .ok st' →
      st.calculateColumnsP ops maxCol maxRow needed ints clock start upto false = .ok (st', []) ∧
      ∃ a b, ratioToInt (start.getD (.int (st.lastCol + 1))) st.numSeries maxCol = .ok a ∧ ratioToInt upto st.numSeries maxCol = .ok b ∧
        ∃ k ≤ (b - a).toNat, ((∀ c, ints c = false) → k = (b - a).toNat) ∧
          st.calculateColumnsP ops maxCol maxRow needed ints clock start upto true = .ok (st', (List.range k).map (columnLine clock (b - a).toNat)) := by
  unfold Calc.calculateColumns Calc.calculateColumnsP
  cases ha : ratioToInt (start.getD (.int (st.lastCol + 1))) st.numSeries maxCol with
  | error e => exact ⟨fun e' h pr => (by cases h; rfl), fun s' h => by cases h⟩
  | ok a =>
  cases hb : ratioToInt upto st.numSeries maxCol with
  | error e => exact ⟨fun e' h pr => (by cases h; rfl), fun s' h => by cases h⟩
  | ok b =>
  cases hr : npFullNan K st.gens.length maxRow with
  | error e => exact ⟨fun e' h pr => (by cases h; rfl), fun s' h => by cases h⟩
  | ok rows =>
    simp only [Except.mapError, bind, Except.bind]
    have key : ∀ pr,
        (∀ e, Calc.columnLoop ops needed maxRow.toNat ints (b - a).toNat a (st, rows) = .error e →
          Calc.columnLoopP ops needed maxRow.toNat ints clock pr a b (b - a).toNat a (st, rows) = .error (.raised e)) ∧
        (∀ s', Calc.columnLoop ops needed maxRow.toNat ints (b - a).toNat a (st, rows) = .ok s' →
          Calc.columnLoopP ops needed maxRow.toNat ints clock pr a b (b - a).toNat a (st, rows) =
            .ok (s', if pr then (List.range (doneBefore ints (b - a).toNat a)).map (columnLine clock (b - a).toNat) else [])) := by
      intro pr
      by_cases hab : a ≤ b
      · have := columnLoopP_ok ops needed maxRow.toNat ints clock pr a b (b - a).toNat a (st, rows) le_rfl (by omega)
        simpa using this
      · rw [show (b - a).toNat = 0 by omega]
        refine ⟨fun e h => (by cases h), fun s' h => ?_⟩
        cases h
        simp [Calc.columnLoopP, doneBefore]
    cases hl : Calc.columnLoop ops needed maxRow.toNat ints (b - a).toNat a (st, rows) with
    | error e =>
      refine ⟨fun e' h pr => ?_, fun s' h => by cases h⟩
      cases h
      simp only [(key pr).1 e hl]
    | ok s =>
      refine ⟨fun e' h => (by cases h), fun s' h => ?_⟩
      cases h
      refine ⟨by simp only [(key false).2 s hl]; rfl, a, b, rfl, rfl, doneBefore ints (b - a).toNat a, doneBefore_le _ _ _, fun h => ?_, ?_⟩
      · rw [show ints = fun _ => false from funext h, doneBefore_false]
      · simp only [(key true).2 s hl]; rfl

/-- **`calculate_columns` never shows 100%**, not even when all columns are done; if any time has passed, the line for the last column shows that time is left. -/
theorem C97_columns_never_complete (clock : Nat → ℚ) (n i : Nat) (hi : i < n) :
    (columnLine clock n i).percent < 100 ∧ (clock 0 < clock n → 0 < (columnLine clock n (n - 1)).seconds) := by
  have h1 : (0 : ℚ) < n + 1 := by positivity
  have h2 : (i : ℚ) + 1 ≤ n := by exact_mod_cast hi
  constructor
  · show (i + 1 : ℚ) / (n + 1) * 100 < 100
    have : ((i + 1 : ℚ) / (n + 1)) < 1 := by rw [div_lt_one h1]; linarith
    linarith
  · intro h
    show 0 < (clock (n - 1 + 1) - clock 0) / ((n - 1 : Nat) + 1 : ℚ) * ((n : ℚ) - (n - 1 : Nat))
    rw [show n - 1 + 1 = n by omega, Nat.cast_sub (by omega : 1 ≤ n)]
    have h3 : (0 : ℚ) < n := by exact_mod_cast (by omega : 0 < n)
    have h4 : (0 : ℚ) < clock n - clock 0 := by linarith
    have : (n : ℚ) - (n - (1 : Nat)) = 1 := by push_cast; ring
    rw [this]
    have : (n : ℚ) - (1 : Nat) + 1 = n := by push_cast; ring
    rw [this]
    positivity

/-! ### Diagonals -/

/-- The line when `calculated` of the `needed` values have been calculated, `total` in all, in `time`. -/
def Spec.diagonalLine (needed total calculated : Int) (time : ℚ) : ProgLine :=
  ⟨(calculated : ℚ) / needed * 100, time / calculated * (needed - calculated), some ((calculated : ℚ) / total * 100)⟩

theorem diagonalProgress_ok (v total calculated : Int) (time : ℚ) (h1 : 0 < calculated) (h2 : 0 < v) (h3 : 0 < total) :
    Anytime.diagonalProgress calculated v total time = .ok (diagonalLine v total calculated time) := by
  have a1 : (calculated : ℚ) ≠ 0 := by exact_mod_cast h1.ne'
  have a2 : (v : ℚ) ≠ 0 := by exact_mod_cast h2.ne'
  have a3 : (total : ℚ) ≠ 0 := by exact_mod_cast h3.ne'
  unfold Anytime.diagonalProgress trueDiv diagonalLine
  simp only [a1, a2, a3, if_false, bind, Except.bind, pure, Except.pure, Int.cast_sub]

theorem diagonalStep_fields (ops : Ops G C K) (needed : List Nat) (d : Int) (st st' : Anytime G C K) (h : Anytime.diagonalStep ops needed d st = .ok st') :
    st'.calculated = st.calculated + diagLength st.base.numQuery st.base.numSeries d ∧ st'.next = st.next + 1 ∧ st'.total = st.total ∧
      st'.base.numQuery = st.base.numQuery ∧ st'.base.numSeries = st.base.numSeries := by
  unfold Anytime.diagonalStep at h
  simp only at h
  obtain ⟨⟨gens', rows1⟩, h1, h⟩ := bind_ok_iff.mp h
  obtain ⟨cons', h2, h⟩ := bind_ok_iff.mp h
  rw [pure_ok_iff] at h
  subst h
  exact ⟨rfl, rfl, rfl, rfl, rfl⟩

theorem diagonalLoopP_ok (ops : Ops G C K) (needed : List Nat) (ints : Nat → Bool) (took : Nat → ℚ) (pr : Bool) (v : Int) :
    ∀ (xs : List Int) (st : Anytime G C K) (t : ℚ), 0 ≤ st.calculated → v ≤ st.total → (∀ d ∈ xs, 0 < diagLength st.base.numQuery st.base.numSeries d) →
      (∀ e, Anytime.diagonalLoop ops needed ints v xs st = .error e → Anytime.diagonalLoopP ops needed ints took pr v xs (st, t) = .error (.raised e)) ∧
      (∀ st', Anytime.diagonalLoop ops needed ints v xs st = .ok st' → ∃ k, st'.next = st.next + k ∧
        Anytime.diagonalLoopP ops needed ints took pr v xs (st, t) = .ok ((st', t + ((List.range k).map fun j => took (st.next + j)).sum),
          if pr then (List.range k).map (fun i => diagonalLine v st.total (st.calculated + lens st (xs.take (i + 1)))
            (t + ((List.range (i + 1)).map fun j => took (st.next + j)).sum)) else [])) := by
  have stop : ∀ (st : Anytime G C K) (t : ℚ) (F : Nat → ProgLine) st', (.ok st : Except PyErr (Anytime G C K)) = .ok st' → ∃ k, st'.next = st.next + k ∧
      (.ok ((st, t), []) : Except ProgErr ((Anytime G C K × ℚ) × List ProgLine)) = .ok ((st', t + ((List.range k).map fun j => took (st.next + j)).sum),
        if pr then (List.range k).map F else []) := by
    intro st t F st' h
    cases h
    exact ⟨0, rfl, by simp⟩
  intro xs
  induction xs with
  | nil =>
    intro st t h1 h2 h3
    unfold Anytime.diagonalLoop Anytime.diagonalLoopP
    split
    · exact ⟨fun e h => (by cases h; rfl), fun st' h => by cases h⟩
    · exact ⟨fun e h => (by cases h), stop st t _⟩
  | cons d xs ih =>
    intro st t h1 h2 h3
    unfold Anytime.diagonalLoop Anytime.diagonalLoopP
    by_cases hc : st.calculated < v ∧ ints st.next = false
    · simp only [hc, and_self, if_true]
      cases hs : Anytime.diagonalStep ops needed d st with
      | error e => exact ⟨fun e' h => (by cases h; rfl), fun st' h => by cases h⟩
      | ok s1 =>
        obtain ⟨f1, f2, f3, f4, f5⟩ := diagonalStep_fields ops needed d st s1 hs
        have hd := h3 d (by simp)
        obtain ⟨a1, a2⟩ := ih s1 (t + took st.next) (by omega) (by omega) (by rw [f4, f5]; exact fun x hx => h3 x (by simp [hx]))
        have hline : printed pr (Anytime.diagonalProgress s1.calculated v s1.total (t + took st.next)) =
            .ok (if pr then [diagonalLine v s1.total s1.calculated (t + took st.next)] else []) := by
          cases pr
          · rfl
          · rw [diagonalProgress_ok v s1.total s1.calculated _ (by omega) (by omega) (by omega)]; rfl
        constructor
        · intro e h
          have h : Anytime.diagonalLoop ops needed ints v xs s1 = .error e := h
          simp only [Except.mapError, bind, Except.bind, hline, a1 e h]
        · intro st' h
          have h : Anytime.diagonalLoop ops needed ints v xs s1 = .ok st' := h
          obtain ⟨k, e1, e2⟩ := a2 st' h
          refine ⟨k + 1, by omega, ?_⟩
          simp only [Except.mapError, bind, Except.bind, hline, e2, pure, Except.pure]
          have hsum : ∀ k, t + took st.next + ((List.range k).map fun j => took (s1.next + j)).sum = t + ((List.range (k + 1)).map fun j => took (st.next + j)).sum := by
            intro k
            rw [List.range_succ_eq_map, List.map_cons, List.sum_cons, List.map_map, f2]
            simp only [Nat.add_zero, add_assoc]
            congr 4
            funext j
            simp only [Function.comp]
            congr 1
            omega
          rw [hsum k]
          congr 2
          cases pr
          · rfl
          · simp only [if_true, List.singleton_append]
            rw [List.range_succ_eq_map, List.map_cons, List.map_map]
            congr 1
            · rw [f1, f3]
              simp [lens]
            · refine List.map_congr_left fun i _ => ?_
              simp only [Function.comp]
              rw [hsum (i + 1), f1, f3]
              congr 1
              simp only [lens, List.take_succ_cons, List.map_cons, List.sum_cons, f4, f5]
              ring
    · simp only [hc, if_false]
      exact ⟨fun e h => (by cases h), stop st t _⟩

/-- **C97, diagonals.** `calculate_diagonals` of an `AnytimeCalculator` in any state it can be in (`Valid`), `t` the time spent so far: with `print_progress=True` it does
the same as with `print_progress=False` (same state afterwards, same exceptions, no `ZeroDivisionError`), and prints one line per diagonal calculated, with the number of
values calculated so far (in all calls) as percentage of those asked for and of all, and the time the diagonals so far took per value times the values left. With `print_progress=False` nothing is printed. -/
theorem C97_diagonals (ops : Ops G C K) (needed : List Nat) (ints : Nat → Bool) (took : Nat → ℚ) (p : PyNum) (st : Anytime G C K) (t : ℚ) (hv : st.Valid needed) :
    (∀ e, st.calculateDiagonals ops needed ints p = .error e → ∀ pr, Anytime.calculateDiagonalsP ops needed ints took p pr (st, t) = .error (.raised e)) ∧
    ∀ st', st.calculateDiagonals ops needed ints p = .ok st' → ∃ v k, ratioToInt p st.total st.total = .ok v ∧ st'.next = st.next + k ∧
      Anytime.calculateDiagonalsP ops needed ints took p false (st, t) = .ok ((st', t + ((List.range k).map fun j => took (st.next + j)).sum), []) ∧
      Anytime.calculateDiagonalsP ops needed ints took p true (st, t) = .ok ((st', t + ((List.range k).map fun j => took (st.next + j)).sum), (List.range k).map fun i =>
        diagonalLine v st.total ((st.order.take (st.next + (i + 1))).map (diagLength st.base.numQuery st.base.numSeries)).sum
          (t + ((List.range (i + 1)).map fun j => took (st.next + j)).sum)) := by
  have htot : 0 ≤ st.total := by rw [hv.total]; exact lens_nonneg _ _
  unfold Anytime.calculateDiagonals Anytime.calculateDiagonalsP
  simp only
  cases hr : npFullNan K st.base.gens.length (min st.base.numQuery st.base.numSeries) with
  | error e => exact ⟨fun e' h pr => (by cases h; rfl), fun s' h => by cases h⟩
  | ok rows =>
  cases hp : ratioToInt p st.total st.total with
  | error e => exact ⟨fun e' h pr => (by cases h; rfl), fun s' h => by cases h⟩
  | ok v =>
    simp only [Except.mapError, bind, Except.bind]
    have key := fun pr => diagonalLoopP_ok ops needed ints took pr v (st.order.drop st.next) st t (by rw [hv.calculated]; exact lens_nonneg _ _)
      (ratioToInt_nonneg _ _ _ _ htot hp).2 (fun d hd => hv.pos d (List.mem_of_mem_drop hd))
    refine ⟨fun e h pr => (key pr).1 e h, fun st' h => ?_⟩
    obtain ⟨k, e1, e2⟩ := (key false).2 st' h
    obtain ⟨k', e3, e4⟩ := (key true).2 st' h
    obtain rfl : k' = k := by omega
    refine ⟨v, k', rfl, e1, e2, e4.trans ?_⟩
    simp only [if_true]
    congr 2
    refine List.map_congr_left fun i _ => ?_
    congr 1
    rw [hv.calculated, ← lens_append, ← List.take_add]
    rfl

/-- **C97, the percentages of `calculate_diagonals`**: they increase from line to line; every line but the last shows less than 100% of what was asked for, the last
one at least 100% if the call is not interrupted; the percentage of the total is at most 100, and 100 if and only if the whole distance matrix has been calculated. -/
theorem C97_percentages (ops : Ops G C K) (needed : List Nat) (ints : Nat → Bool) (took : Nat → ℚ) (p : PyNum) (st st' : Anytime G C K) (t t' : ℚ) (lines : List ProgLine)
    (hv : st.Valid needed) (h : Anytime.calculateDiagonalsP ops needed ints took p true (st, t) = .ok ((st', t'), lines)) :
    lines.length = st'.next - st.next ∧ (lines.map ProgLine.percent).Pairwise (· < ·) ∧ (∀ l ∈ lines.dropLast, l.percent < 100) ∧
      ((∀ i, ints i = false) → ∀ l ∈ lines.getLast?, 100 ≤ l.percent) ∧
      (∀ l ∈ lines, ∃ x ≤ 100, l.total = some x) ∧ (∀ l ∈ lines.getLast?, l.total = some 100 ↔ st'.next = st'.order.length) := by
  have htot : 0 ≤ st.total := by rw [hv.total]; exact lens_nonneg _ _
  obtain ⟨a1, a2⟩ := C97_diagonals ops needed ints took p st t hv
  cases hc : st.calculateDiagonals ops needed ints p with
  | error e => rw [a1 e hc] at h; cases h
  | ok s1 =>
  obtain ⟨v, k, hp, hk, -, e⟩ := a2 s1 hc
  rw [e] at h
  cases h
  obtain ⟨hv', -⟩ := calculateDiagonals_valid ops needed ints p st st' hv hc
  obtain ⟨k', c1, c2⟩ := (calculateDiagonals_iff ops needed ints p v st st' hv hp).mp hc
  obtain ⟨f1, f2, f3, f4, f5, f6, f7, f8, f9⟩ := c2.fields
  have hle := diagCount_le _ _ _ _ _ _ c1
  rw [List.length_map] at hle
  rw [List.length_take, Nat.min_eq_left hle] at f2
  obtain rfl : k' = k := by omega
  rw [List.length_drop] at hle
  obtain ⟨d1, d2⟩ := diagCount_spec _ _ _ _ _ _ c1
  set cal : Nat → Int := fun i => ((st.order.take (st.next + i)).map (diagLength st.base.numQuery st.base.numSeries)).sum with hcal
  have hsum : ∀ j, st.calculated + (((st.order.drop st.next).map (diagLength st.base.numQuery st.base.numSeries)).take j).sum = cal j := by
    intro j
    rw [hv.calculated, ← List.map_take]
    show lens st _ + lens st _ = lens st _
    rw [← lens_append, ← List.take_add]
  simp only [hsum] at d1 d2
  have hnext := hv.next
  have hstep : ∀ i, st.next + i < st.order.length → cal i < cal (i + 1) := by
    intro i hi
    have : st.order.take (st.next + (i + 1)) = st.order.take (st.next + i) ++ [st.order[st.next + i]] := by
      rw [← Nat.add_assoc, List.take_add_one, List.getElem?_eq_getElem hi]
      rfl
    simp only [hcal, this, List.map_append, List.sum_append, List.map_cons, List.map_nil, List.sum_cons, List.sum_nil]
    have := hv.pos _ (List.getElem_mem hi)
    omega
  have hmono : ∀ i j, i < j → st.next + j ≤ st.order.length → cal i < cal j := by
    intro i j hij
    induction j, hij using Nat.le_induction with
    | base => intro hj; exact hstep i (by omega)
    | succ j hij ih => intro hj; exact (ih (by omega)).trans (hstep j (by omega))
  have hcal0 : 0 ≤ cal 0 := by rw [← hsum 0, hv.calculated]; simpa using lens_nonneg st _
  have hcalTot : cal (st.order.length - st.next) = st.total := by
    rw [hv.total]
    simp only [hcal]
    rw [List.take_of_length_le (by omega)]
    rfl
  have hcalLe : ∀ j, st.next + j ≤ st.order.length → cal j ≤ st.total := by
    intro j hj
    rw [← hcalTot]
    rcases Nat.lt_or_ge j (st.order.length - st.next) with h | h
    · exact (hmono _ _ h (by omega)).le
    · rw [show j = st.order.length - st.next by omega]
  have hvpos : 0 < k' → (0 : ℚ) < v := by
    intro h
    have := (d1 0 h).1
    exact_mod_cast (by omega : 0 < v)
  have htpos : 0 < k' → (0 : ℚ) < st.total := by
    intro h
    have := hcalLe k' (by omega)
    have := hmono 0 k' h (by omega)
    exact_mod_cast (by omega : 0 < st.total)
  have hlast : ∀ l ∈ ((List.range k').map fun i => diagonalLine v st.total (cal (i + 1)) (t + ((List.range (i + 1)).map fun j => took (st.next + j)).sum)).getLast?, 0 < k' ∧ ∃ x, l = diagonalLine v st.total (cal k') x := by
    intro l hl
    rw [List.getLast?_map, Option.mem_map] at hl
    obtain ⟨i, hi, rfl⟩ := hl
    cases k' with
    | zero => simp at hi
    | succ n =>
      rw [List.getLast?_range, if_neg (by omega)] at hi
      cases hi
      exact ⟨by omega, _, rfl⟩
  refine ⟨by simp [hk], ?_, ?_, ?_, ?_, ?_⟩
  · rw [List.map_map]
    rw [List.pairwise_map]
    refine List.Pairwise.imp_of_mem ?_ List.pairwise_lt_range
    intro i j hi hj hij
    rw [List.mem_range] at hi hj
    show (cal (i + 1) : ℚ) / v * 100 < (cal (j + 1) : ℚ) / v * 100
    have h1 : (cal (i + 1) : ℚ) < cal (j + 1) := by exact_mod_cast hmono _ _ (by omega) (by omega)
    have := div_lt_div_of_pos_right h1 (hvpos (by omega))
    linarith
  · intro l hl
    rw [← List.map_dropLast, List.mem_map] at hl
    obtain ⟨i, hi, rfl⟩ := hl
    replace hi : i < k' - 1 := by
      cases k' with
      | zero => simp at hi
      | succ n => rw [List.range_succ, List.dropLast_concat, List.mem_range] at hi; omega
    show (cal (i + 1) : ℚ) / v * 100 < 100
    have h1 : (cal (i + 1) : ℚ) < v := by exact_mod_cast (d1 (i + 1) (by omega)).1
    have := (div_lt_one (hvpos (by omega))).mpr h1
    linarith
  · intro hi l hl
    obtain ⟨h0, x, rfl⟩ := hlast l hl
    show 100 ≤ (cal k' : ℚ) / v * 100
    have h1 : (v : ℚ) ≤ cal k' := by
      have : v ≤ cal k' := by
        by_contra hlt
        exact d2 ⟨by omega, hi _⟩
      exact_mod_cast this
    have := (one_le_div (hvpos h0)).mpr h1
    linarith
  · intro l hl
    rw [List.mem_map] at hl
    obtain ⟨i, hi, rfl⟩ := hl
    rw [List.mem_range] at hi
    refine ⟨_, ?_, rfl⟩
    have h1 : (cal (i + 1) : ℚ) ≤ st.total := by exact_mod_cast hcalLe (i + 1) (by omega)
    have := (div_le_one (htpos (by omega))).mpr h1
    show (cal (i + 1) : ℚ) / st.total * 100 ≤ 100
    linarith
  · intro l hl
    obtain ⟨h0, x, rfl⟩ := hlast l hl
    rw [f6]
    show some ((cal k' : ℚ) / st.total * 100) = some 100 ↔ _
    have hpos := htpos h0
    constructor
    · intro h
      have h : (cal k' : ℚ) / st.total * 100 = 100 := by simpa using h
      have h : (cal k' : ℚ) / st.total = 1 := by linarith
      rw [div_eq_one_iff_eq hpos.ne'] at h
      have h : cal k' = st.total := by exact_mod_cast h
      by_contra hne
      have := hmono k' (st.order.length - st.next) (by omega) (by omega)
      omega
    · intro h
      have : cal k' = st.total := by rw [← hcalTot]; congr 1; omega
      rw [this, div_self hpos.ne', one_mul]

/-! ### Concrete cases -/

/-- Three columns, of which one at a time: 25%, 50%, 75%. -/
example : (recCalc.calculateColumnsP recOps 3 3 [1] (fun _ => false) (fun k => 2 * k) none (.float (.fin 1)) true).map Prod.snd =
    .ok [⟨25, 6, none⟩, ⟨50, 4, none⟩, ⟨75, 2, none⟩] := by
  decide +kernel

example := C97_columns_partial recOps 3 3 [1] (fun _ => false) (fun k => 2 * k) none (.float (.fin 1)) recCalc
example := C97_columns_never_complete (fun k => 2 * k) 3 2 (by decide)

/-- A self-join with diagonals of 1 and 2 values: first one value, then all. -/
example : (Anytime.calculateDiagonalsP recOps [1] (fun _ => false) (fun _ => 3) (.int 1) true (recAnytime, 0) >>= fun s =>
      (Anytime.calculateDiagonalsP recOps [1] (fun _ => false) (fun _ => 5) (.int 3) true s.1).map fun s' => (s.2, s'.2, s'.1.2)) =
    .ok ([⟨100, 0, some (100 / 3)⟩], [⟨100, 0, some 100⟩], 8) := by
  decide +kernel

example : ∃ st' t' lines, Anytime.calculateDiagonalsP recOps [1] (fun _ => false) (fun _ => 3) (.int 2) true (recAnytime, 0) = .ok ((st', t'), lines) ∧
    lines.length = st'.next ∧ (lines.map ProgLine.percent).Pairwise (· < ·) := by
  obtain ⟨v, k, -, -, -, h⟩ := (C97_diagonals recOps [1] (fun _ => false) (fun _ => 3) (.int 2) recAnytime 0 recAnytime_valid).2 _ rfl
  obtain ⟨h1, h2, -⟩ := C97_percentages recOps [1] (fun _ => false) (fun _ => 3) (.int 2) recAnytime _ 0 _ _ recAnytime_valid h
  exact ⟨_, _, _, h, h1, h2⟩

/-- **`calculate_diagonals` may show more than 100% and a negative time left**: the last diagonal has more values than were asked for. -/
theorem C97_negative_time : (Anytime.calculateDiagonalsP recOps [1] (fun _ => false) (fun _ => 3) (.int 2) true (recAnytime, 0)).map (fun s => s.2.map fun l => (l.percent, l.seconds)) =
    .ok [(50, 3), (150, -2)] := by
  decide +kernel

end Verif
