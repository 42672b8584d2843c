import Verif.Lemmas.Calculator
import Verif.Props.Diagonals
import Mathlib.Tactic.Linarith

/-!
# C18, C19, C22, C23, C24 for columns: `calculate_columns`, `_ratio_to_int`, constructor guard
-/

namespace Verif
open Spec
variable {G C K : Type}

/-- Test objects: a generator counts its calls; a consumer records its events. -/
def recOps : Ops Nat (List (Int × List (List (Fl Int)))) Int where
  calcColumn g c := .ok (g + 1, [.fin c, .fin (10 * c), .fin (100 * c)])
  calcDiagonal g d := .ok (g + 1, List.replicate (diagLength 3 3 d).toNat (.fin d))
  appendSeries g _ := .ok g
  appendQuery g _ := .ok g
  initialise c _ _ _ := .ok c
  processColumn l c v := .ok (l ++ [(c, v)])
  processDiagonal l d v := .ok (l ++ [(d, v)])
  shiftSeries l n := .ok (l ++ [(n, [])])
  shiftQuery l n := .ok (l ++ [(-n, [])])

def recCalc : Calc Nat (List (Int × List (List (Fl Int)))) :=
  { selfJoin := true, m := 2, nDim := 1, numSeries := 3, numQuery := 3, buffer := 0, gens := [(0, 0), (7, 0)],
    cons := [([], [1])], lastCol := -1 }

/-! ### C19 -/

/-- **C19**: a ratio in [0,1] means `ceil(ratio * full)`, clamped to `[0, limit]`. -/
theorem C19_ratio (q : ℚ) (h0 : 0 ≤ q) (h1 : q ≤ 1) (full limit : Int) (hl : 0 ≤ limit) :
    ∃ r, ratioToInt (.float (.fin q)) full limit = .ok r ∧ 0 ≤ r ∧ r ≤ limit ∧
      (0 ≤ full → ((⌈q * full⌉ ≤ limit → r = ⌈q * full⌉) ∧ (limit ≤ ⌈q * full⌉ → r = limit))) := by
  refine ⟨min (max 0 ⌈q * full⌉) limit, ?_, ?_, ?_, ?_⟩
  · unfold ratioToInt
    have h : (Fl.ltF (.fin q) (.fin 0) || Fl.ltF (.fin 1) (.fin q)) = false := by
      simp only [Bool.or_eq_false_iff, Fl.ltF, Bool.and_eq_false_imp, decide_eq_true_eq]
      constructor
      · intro h; rw [Fl.fin_lt_fin] at h; exact absurd h (not_lt.mpr h0)
      · intro h; rw [Fl.fin_lt_fin] at h; exact absurd h (not_lt.mpr h1)
    simp [h]
  · omega
  · omega
  · intro hf
    have : 0 ≤ ⌈q * full⌉ := by
      apply Int.ceil_nonneg
      have : (0 : ℚ) ≤ full := by exact_mod_cast hf
      positivity
    constructor <;> intro <;> omega

/-- **C19**: an int is used as is, clamped to `[0, limit]`. -/
theorem C19_int (i full limit : Int) (hl : 0 ≤ limit) :
    ∃ r, ratioToInt (.int i) full limit = .ok r ∧ 0 ≤ r ∧ r ≤ limit ∧
      (i ≤ 0 → r = 0) ∧ (0 ≤ i → i ≤ limit → r = i) ∧ (limit ≤ i → r = limit) :=
  ⟨min (max 0 i) limit, rfl, by omega, by omega, by omega, by omega, by omega⟩

example : ratioToInt (.int 7) 10 5 = .ok 5 := by
  obtain ⟨r, h, _, _, _, _, h3⟩ := C19_int 7 10 5 (by decide)
  rw [h, h3 (by decide)]

/-- **C19**: floats outside [0,1], infinities, NaN and other types raise. -/
theorem C19_guards (full limit : Int) (x : Fl ℚ) (h : ∀ q, x = .fin q → q < 0 ∨ 1 < q) :
    ratioToInt (.float x) full limit = .error .valueError ∧ ratioToInt .other full limit = .error .runtimeError := by
  refine ⟨?_, rfl⟩
  unfold ratioToInt
  simp only
  split
  · rfl
  · rename_i hc
    cases x with
    | fin q =>
      exfalso
      apply hc
      simp only [Bool.or_eq_true, Fl.ltF_iff, Fl.fin_lt_fin]
      rcases h q rfl with h | h
      · exact Or.inl ⟨h, by simp⟩
      · exact Or.inr ⟨h, by simp⟩
    | nan => rfl
    | pinf => rfl
    | ninf => rfl

/-- **C19**: monotone in the ratio and in the int. -/
theorem C19_monotone (full limit : Int) (hf : 0 ≤ full) :
    (∀ (p q : ℚ) (a b : Int), p ≤ q → ratioToInt (.float (.fin p)) full limit = .ok a →
      ratioToInt (.float (.fin q)) full limit = .ok b → a ≤ b) ∧
    (∀ (i j a b : Int), i ≤ j → ratioToInt (.int i) full limit = .ok a → ratioToInt (.int j) full limit = .ok b → a ≤ b) := by
  constructor
  · intro p q a b hpq ha hb
    unfold ratioToInt at ha hb
    simp only at ha hb
    split at ha
    · cases ha
    split at hb
    · cases hb
    cases ha; cases hb
    have : ⌈p * full⌉ ≤ ⌈q * full⌉ := by
      apply Int.ceil_le_ceil
      have : (0 : ℚ) ≤ full := by exact_mod_cast hf
      exact mul_le_mul_of_nonneg_right hpq this
    omega
  · intro i j a b hij ha hb
    cases ha; cases hb; omega

example (a b : Int) (ha : ratioToInt (.float (.fin (1 / 3))) 10 7 = .ok a) (hb : ratioToInt (.float (.fin (1 / 2))) 10 7 = .ok b) : a ≤ b :=
  (C19_monotone 10 7 (by decide)).1 (1 / 3) (1 / 2) a b (by norm_num) ha hb

/-- **C19**: 1.0 means the full limit, 0.0 means nothing. -/
theorem C19_one (full limit : Int) (hl : 0 ≤ limit) (h : limit ≤ full) :
    ratioToInt (.float (.fin 1)) full limit = .ok limit ∧ ratioToInt (.float (.fin 0)) full limit = .ok 0 := by
  constructor
  · obtain ⟨r, h1, _, _, h3⟩ := C19_ratio 1 (by norm_num) le_rfl full limit hl
    rw [h1]; congr 1
    exact (h3 (by omega)).2 (by simpa using h)
  · obtain ⟨r, h1, _, _, h3⟩ := C19_ratio 0 le_rfl (by norm_num) full limit hl
    rw [h1]; congr 1
    simpa using (h3 (by omega)).1 (by simpa using hl)

example : ratioToInt (.float (.fin (1/3))) 10 100 = .ok 4 := by
  obtain ⟨r, h1, _, _, h3⟩ := C19_ratio (1/3) (by norm_num) (by norm_num) 10 100 (by norm_num)
  have hc : ⌈(1/3 : ℚ) * ((10 : Int) : ℚ)⌉ = 4 := by rw [Int.ceil_eq_iff]; norm_num
  rw [h1, (h3 (by norm_num)).1 (by rw [hc]; norm_num), hc]
example : ratioToInt (.float .nan) 10 100 = .error .valueError := (C19_guards 10 100 .nan (by simp)).1

/-! ### C24 -/

/-- **C24**: validation of `trivial_match_buffer`. -/
theorem C24_trivial_match_buffer (m numSeries numQuery : Int) (nDim : Nat) (buffer : Option Int) :
    (∀ st : Calc G C, Calc.init true m numSeries numQuery nDim buffer = .ok st →
      st.buffer = buffer.getD (m / 2) ∧ -1 ≤ st.buffer ∧ st.buffer < numSeries ∧ st.numQuery = numSeries) ∧
    ((buffer.getD (m / 2) < -1 ∨ numSeries ≤ buffer.getD (m / 2)) →
      (Calc.init true m numSeries numQuery nDim buffer : Except PyErr (Calc G C)) = .error .runtimeError) ∧
    ((-1 ≤ buffer.getD (m / 2) ∧ buffer.getD (m / 2) < numSeries) →
      ∃ st : Calc G C, Calc.init true m numSeries numQuery nDim buffer = .ok st) ∧
    (∃ st : Calc G C, Calc.init false m numSeries numQuery nDim buffer = .ok st ∧ st.buffer = -1 ∧ st.numQuery = numQuery) := by
  refine ⟨?_, ?_, ?_, ⟨_, rfl, rfl, rfl⟩⟩
  · intro st h
    simp only [Calc.init, if_true] at h
    split at h
    · rename_i hm
      rw [mem_pyRange] at hm
      cases h
      exact ⟨rfl, hm.1, hm.2, rfl⟩
    · cases h
  · intro h
    simp only [Calc.init, if_true]
    rw [if_neg]
    rw [mem_pyRange]; omega
  · intro h
    simp only [Calc.init, if_true]
    rw [if_pos (mem_pyRange.mpr h)]
    exact ⟨_, rfl⟩

example : (Calc.init true 5 3 3 1 (some 3) : Except PyErr (Calc Unit Unit)) = .error .runtimeError :=
  (C24_trivial_match_buffer 5 3 3 1 (some 3)).2.1 (by decide)

example : (Calc.init true 5 3 3 1 none : Except PyErr (Calc Unit Unit)).toBool = true ∧
    (Calc.init true 6 3 3 1 none : Except PyErr (Calc Unit Unit)).toBool = false := by decide

/-! ### The column loop -/

theorem mask_eq (b c : Int) (hb : -1 ≤ b) (hc : 0 ≤ c) (rows : List (List (Fl K))) :
    Calc.mask b c rows = rows.map (maskRow b c) := by
  unfold Calc.mask
  split
  · apply List.map_congr_left
    intro row _
    apply List.ext_getElem?
    intro i
    rw [pyFill_getElem?, pyIdx_nonneg _ _ (by omega), pyIdx_nonneg _ _ (by omega)]
    unfold maskRow
    rw [List.getElem?_mapIdx]
    by_cases hi : i < row.length
    · rw [List.getElem?_eq_getElem hi]
      simp only [Option.map_some]
      by_cases h : (i : Int) - c ≤ b ∧ c - i ≤ b
      · rw [if_pos h, if_pos (by omega)]
      · rw [if_neg h, if_neg (by omega)]
    · rw [List.getElem?_eq_none (by omega), if_neg (by omega)]; rfl
  · have : b = -1 := by omega
    subst this
    conv_lhs => rw [← List.map_id rows]
    apply List.map_congr_left
    intro row _
    apply List.ext_getElem?
    intro i
    unfold maskRow
    rw [List.getElem?_mapIdx, id]
    have : ¬ ((i : Int) - c ≤ -1 ∧ c - i ≤ -1) := by omega
    simp only [this, if_false]
    cases row[i]? <;> rfl

/-- The events of one column for a consumer whose rows are `vals`. -/
def colEvs (b : Int) (c : Int) (vals : List (List (Fl K))) : List (CEvent K) := [.column c (vals.map (maskRow b c))]

/-- Relation of one round of the column loop. -/
abbrev ColRound (ops : Ops G C K) (mr : Nat) (needed : List Nat) (b : Int) :=
  RoundRel ops ops.calcColumn (fun _ => mr) needed (colEvs b)
abbrev ColRounds (ops : Ops G C K) (mr : Nat) (needed : List Nat) (b : Int) :=
  RoundsRel ops ops.calcColumn (fun _ => mr) needed (colEvs b)

theorem columnStep_iff (ops : Ops G C K) (needed : List Nat) (hnd : needed.Nodup) (mr : Nat) (c : Int) (hc0 : 0 ≤ c)
    (st st' : Calc G C) (hb : -1 ≤ st.buffer) (rows : List (List (Fl K))) (hrows : rows.length = st.gens.length)
    (hc : Covers needed st.cons) :
    (∃ rows', Calc.columnStep ops needed mr c (st, rows) = .ok (st', rows') ∧ rows'.length = rows.length) ↔
      ColRound ops mr needed st.buffer c (st.gens, st.cons) (st'.gens, st'.cons) ∧
        st' = { st with gens := st'.gens, cons := st'.cons, lastCol := max c st.lastCol } := by
  have key := fun gens' cons' => round_iff ops ops.calcColumn (fun _ => mr) needed hnd (colEvs st.buffer) (maskRow st.buffer c) c
    st.gens gens' st.cons cons' rows hrows hc (fun c' vals => ops.processColumn c' c vals)
    (by intro c' vals; rw [colEvs, feed_singleton]; rfl)
  constructor
  · rintro ⟨rows', h, _⟩
    unfold Calc.columnStep at h
    simp only at h
    obtain ⟨⟨gens', rows1⟩, h1, h⟩ := bind_ok_iff.mp h
    simp only [mask_eq _ _ hb hc0] at h
    obtain ⟨cons', h2, h⟩ := bind_ok_iff.mp h
    rw [pure_ok_iff] at h
    obtain ⟨rfl, rfl⟩ := Prod.mk.inj h
    exact ⟨(key gens' cons').mp ⟨rows1, h1, h2⟩, rfl⟩
  · rintro ⟨h, he⟩
    obtain ⟨rows1, h1, h2⟩ := (key st'.gens st'.cons).mpr h
    refine ⟨rows1.map (maskRow st.buffer c), ?_, ?_⟩
    · unfold Calc.columnStep
      simp only
      refine bind_ok_iff.mpr ⟨(st'.gens, rows1), h1, ?_⟩
      simp only [mask_eq _ _ hb hc0]
      refine bind_ok_iff.mpr ⟨st'.cons, h2, ?_⟩
      rw [pure_ok_iff]
      exact Prod.ext he rfl
    · rw [List.length_map]
      exact ((genStep_iff _ _ _ hnd _ _ _ _).mp h1).2.1

theorem columnStep_rows (ops : Ops G C K) (needed : List Nat) (hnd : needed.Nodup) (mr : Nat) (c : Int)
    (s s' : Calc G C × List (List (Fl K))) (h : Calc.columnStep ops needed mr c s = .ok s') :
    s'.2.length = s.2.length ∧ s'.1.gens.length = s.1.gens.length ∧ s'.1.buffer = s.1.buffer := by
  obtain ⟨st, rows⟩ := s
  unfold Calc.columnStep at h
  simp only at h
  obtain ⟨⟨gens', rows1⟩, h1, h⟩ := bind_ok_iff.mp h
  obtain ⟨cons', h2, h⟩ := bind_ok_iff.mp h
  rw [pure_ok_iff] at h
  subst h
  obtain ⟨a, b, _⟩ := (genStep_iff _ _ _ hnd _ _ _ _).mp h1
  refine ⟨?_, a, rfl⟩
  simp only
  unfold Calc.mask
  split <;> simp [b]

theorem columnLoop_iff (ops : Ops G C K) (needed : List Nat) (hnd : needed.Nodup) (mr n : Nat) (c : Int) (hc0 : 0 ≤ c)
    (st st' : Calc G C) (hb : -1 ≤ st.buffer) (rows : List (List (Fl K))) (hrows : rows.length = st.gens.length)
    (hc : Covers needed st.cons) :
    (∃ rows', Calc.columnLoop ops needed mr (fun _ => false) n c (st, rows) = .ok (st', rows')) ↔
      ColRounds ops mr needed st.buffer (pyRange c (c + n)) (st.gens, st.cons) (st'.gens, st'.cons) ∧
        st' = { st with gens := st'.gens, cons := st'.cons, lastCol := if n = 0 then st.lastCol else max (c + n - 1) st.lastCol } := by
  induction n generalizing c st rows with
  | zero =>
    rw [pyRange_empty _ _ (by omega)]
    simp only [Calc.columnLoop, RoundsRel, if_true, Except.ok.injEq, Prod.mk.injEq]
    constructor
    · rintro ⟨_, rfl, _⟩; exact ⟨⟨rfl, rfl⟩, rfl⟩
    · rintro ⟨⟨h1, h2⟩, h⟩
      refine ⟨rows, ?_, rfl⟩
      rw [h, h1, h2]
  | succ n ih =>
    rw [pyRange_succ_left _ _ (by omega), show c + ((n + 1 : Nat) : Int) = c + 1 + n by push_cast; ring]
    simp only [Calc.columnLoop, RoundsRel, Bool.false_eq_true, if_false]
    constructor
    · rintro ⟨rows', h⟩
      obtain ⟨⟨st1, rows1⟩, h1, h⟩ := bind_ok_iff.mp h
      obtain ⟨l1, l2, l3⟩ := columnStep_rows ops needed hnd mr c _ _ h1
      simp only at l1 l2 l3
      obtain ⟨r1, e1⟩ := (columnStep_iff ops needed hnd mr c hc0 st st1 hb rows hrows hc).mp ⟨rows1, h1, l1⟩
      obtain ⟨R, hR, hf⟩ := r1
      obtain ⟨r2, e2⟩ := (ih (c + 1) (by omega) st1 (by rw [l3]; exact hb) rows1 (by omega) (Covers.of_ids hf.ids hc)).mp ⟨rows', h⟩
      rw [l3] at r2
      refine ⟨⟨(st1.gens, st1.cons), ⟨R, hR, hf⟩, r2⟩, ?_⟩
      rw [e2, e1]
      simp only [Calc.mk.injEq, true_and]
      split
      · subst n; simp
      · simp only [Nat.add_one_ne_zero, if_false]; omega
    · rintro ⟨⟨⟨g1, c1⟩, r1, r2⟩, he⟩
      have r1' := r1
      obtain ⟨R, hR, hf⟩ := r1
      obtain ⟨rows1, h1, l1⟩ := (columnStep_iff ops needed hnd mr c hc0 st
        { st with gens := g1, cons := c1, lastCol := max c st.lastCol } hb rows hrows hc).mpr ⟨r1', rfl⟩
      obtain ⟨_, l2, _⟩ := columnStep_rows ops needed hnd mr c _ _ h1
      simp only at l2
      obtain ⟨rows', h⟩ := (ih (c + 1) (by omega) { st with gens := g1, cons := c1, lastCol := max c st.lastCol } hb rows1
        (by simp only; omega) (Covers.of_ids hf.ids hc)).mpr ⟨r2, by
          rw [he]
          simp only [Calc.mk.injEq, true_and]
          split
          · omega
          · split
            · subst n; simp
            · omega⟩
      exact ⟨rows', bind_ok_iff.mpr ⟨_, h1, h⟩⟩

/-- Number of columns done before the first SIGINT is noticed. -/
def doneBefore (ints : Int → Bool) : Nat → Int → Nat
  | 0, _ => 0
  | n + 1, c => if ints c then 0 else doneBefore ints n (c + 1) + 1

theorem doneBefore_le (ints : Int → Bool) (n : Nat) (c : Int) : doneBefore ints n c ≤ n := by
  induction n generalizing c with
  | zero => simp [doneBefore]
  | succ n ih => unfold doneBefore; split; omega; have := ih (c + 1); omega

theorem doneBefore_false (n : Nat) (c : Int) : doneBefore (fun _ => false) n c = n := by
  induction n generalizing c with
  | zero => rfl
  | succ n ih => simp [doneBefore, ih]

theorem columnLoop_ints (ops : Ops G C K) (needed : List Nat) (mr : Nat) (ints : Int → Bool) (n : Nat) (c : Int)
    (s : Calc G C × List (List (Fl K))) :
    Calc.columnLoop ops needed mr ints n c s = Calc.columnLoop ops needed mr (fun _ => false) (doneBefore ints n c) c s := by
  induction n generalizing c s with
  | zero => rfl
  | succ n ih =>
    unfold doneBefore
    split
    · rename_i h; simp [Calc.columnLoop, h]
    · rename_i h
      have h' : ints c = false := by simpa using h
      simp only [Calc.columnLoop, h', Bool.false_eq_true, if_false]
      congr 1
      funext s'
      exact ih (c + 1) s'

/-- State after columns `[a, a+k)`. -/
def ColsDone (ops : Ops G C K) (mr : Nat) (needed : List Nat) (a : Int) (k : Nat) (st st' : Calc G C) : Prop :=
  ColRounds ops mr needed st.buffer (pyRange a (a + k)) (st.gens, st.cons) (st'.gens, st'.cons) ∧
    st' = { st with gens := st'.gens, cons := st'.cons, lastCol := if k = 0 then st.lastCol else max (a + k - 1) st.lastCol }

/-- `calculate_columns` with given (converted) bounds. -/
theorem calculateColumns_iff (ops : Ops G C K) (maxCol maxRow : Int) (hmr : 0 ≤ maxRow) (hmc : 0 ≤ maxCol) (needed : List Nat)
    (ints : Int → Bool) (start : Option PyNum) (upto : PyNum) (st st' : Calc G C) (hnd : needed.Nodup) (hc : Covers needed st.cons)
    (hb : -1 ≤ st.buffer) (a b : Int)
    (ha : ratioToInt (start.getD (.int (st.lastCol + 1))) st.numSeries maxCol = .ok a)
    (hbb : ratioToInt upto st.numSeries maxCol = .ok b) (ha0 : 0 ≤ a) :
    st.calculateColumns ops maxCol maxRow needed ints start upto = .ok st' ↔
      ColsDone ops maxRow.toNat needed a (doneBefore ints (b - a).toNat a) st st' := by
  have hfull : npFullNan K st.gens.length maxRow = .ok (List.replicate st.gens.length (List.replicate maxRow.toNat .nan)) := by
    unfold npFullNan; rw [if_neg (by omega)]
  unfold ColsDone
  rw [← columnLoop_iff ops needed hnd maxRow.toNat _ a ha0 st st' hb (List.replicate st.gens.length (List.replicate maxRow.toNat .nan))
    (by simp) hc]
  unfold Calc.calculateColumns
  simp only [ha, hbb, hfull, bind, Except.bind, columnLoop_ints ops needed maxRow.toNat ints]
  generalize Calc.columnLoop ops needed maxRow.toNat (fun _ => false) _ a _ = r
  cases r with
  | error e => simp
  | ok s => obtain ⟨s1, s2⟩ := s; simp [pure, Except.pure]

theorem ratioToInt_nonneg (r : PyNum) (full limit a : Int) (hl : 0 ≤ limit) (h : ratioToInt r full limit = .ok a) :
    0 ≤ a ∧ a ≤ limit := by
  unfold ratioToInt at h
  cases r with
  | float x =>
    simp only at h
    split at h
    · cases h
    · split at h
      · cases h; omega
      · cases h
  | int i => cases h; omega
  | other => cases h

/-! ### C23 -/

/-- **C23**: a `calculate_columns(start, upto)` call (not interrupted) returns normally with result `st'` if and only if
each needed generator, asked for the columns `a, …, b-1` (the converted bounds) once each from left to right, gives rows `R`,
each consumer, fed exactly these columns in that order with the rows of its own generators in the order it asked for, masked
around the diagonal, ends in its state of `st'`, and the position of the last column has been updated. -/
theorem C23_columns (ops : Ops G C K) (maxCol maxRow : Int) (hmr : 0 ≤ maxRow) (hmc : 0 ≤ maxCol) (st st' : Calc G C)
    (needed : List Nat) (hn : st.Needed needed) (hids : ∀ c ∈ st.cons, ∀ id ∈ c.2, id < st.gens.length)
    (hb : -1 ≤ st.buffer) (start : Option PyNum) (upto : PyNum) (a b : Int)
    (ha : ratioToInt (start.getD (.int (st.lastCol + 1))) st.numSeries maxCol = .ok a)
    (hbb : ratioToInt upto st.numSeries maxCol = .ok b) :
    st.calculateColumns ops maxCol maxRow needed (fun _ => false) start upto = .ok st' ↔
      ∃ R : Nat → Int → List (Fl K),
        AllAsked ops.calcColumn (fun _ => maxRow.toNat) needed R (pyRange a b) st.gens st'.gens ∧
        AllFed ops (fun ids => (pyRange a b).map fun c => .column c (ids.map fun id => maskRow st.buffer c (R id c)))
          st.cons st'.cons ∧
        st' = { st with gens := st'.gens, cons := st'.cons, lastCol := if a < b then max (b - 1) st.lastCol else st.lastCol } := by
  have ha0 := (ratioToInt_nonneg _ _ _ _ hmc ha).1
  have hc : Covers needed st.cons := fun c hcm id hid => (hn.mem id).mpr ⟨c, hcm, hid⟩
  rw [calculateColumns_iff ops maxCol maxRow hmr hmc needed _ start upto st st' hn.nodup hc hb a b ha hbb ha0, doneBefore_false]
  have hr : pyRange a (a + ((b - a).toNat : Int)) = pyRange a b := by
    unfold pyRange; congr 2; omega
  unfold ColsDone
  rw [hr, ColRounds, RoundsRel_iff ops _ _ needed _ _ ?_ _ _ hc ?_]
  · have hlast : (if (b - a).toNat = 0 then st.lastCol else max (a + ((b - a).toNat : Int) - 1) st.lastCol) =
        if a < b then max (b - 1) st.lastCol else st.lastCol := by
      by_cases h : a < b
      · rw [if_pos h, if_neg (by omega)]; congr 1; omega
      · rw [if_neg h, if_pos (by omega)]
    have hev : ∀ R : Nat → Int → List (Fl K), (fun ids : List Nat => (pyRange a b).flatMap fun x => colEvs st.buffer x (ids.map fun id => R id x)) =
        (fun ids => (pyRange a b).map fun c => CEvent.column c (ids.map fun id => maskRow st.buffer c (R id c))) := by
      intro R
      funext ids
      rw [List.flatMap_def]
      simp only [colEvs, List.map_map]
      induction pyRange a b with
      | nil => rfl
      | cons x xs ih => simp only [List.map_cons, List.flatten_cons, ih]; rfl
    rw [hlast]
    simp only [hev]
    constructor
    · rintro ⟨⟨R, h1, h2⟩, h3⟩; exact ⟨R, h1, h2, h3⟩
    · rintro ⟨R, h1, h2, h3⟩; exact ⟨⟨R, h1, h2⟩, h3⟩
  · apply List.Nodup.map _ List.nodup_range
    intro x y hxy
    simp only at hxy
    omega
  · intro id hid
    obtain ⟨c, h1, h2⟩ := (hn.mem id).mp hid
    exact hids c h1 id h2

example := fun st' => C23_columns recOps 3 3 (by decide) (by decide) recCalc st' [1] ⟨by decide, by intro id; simp [recCalc]⟩ (by decide) (by decide)
  none (.int 5) 0 3 rfl rfl

/-- **C23**: the position of an entry decides whether it is masked: exactly the entries with `|i - c| ≤ buffer`. -/
theorem C23_mask (b c : Int) (row : List (Fl K)) (i : Nat) :
    (maskRow b c row)[i]? = if |(i : Int) - c| ≤ b then (row[i]?).map fun _ => .pinf else row[i]? := by
  unfold maskRow
  rw [List.getElem?_mapIdx]
  have : (|(i : Int) - c| ≤ b) ↔ ((i : Int) - c ≤ b ∧ c - i ≤ b) := by rw [abs_le]; omega
  simp only [this]
  cases row[i]? with
  | none => simp
  | some x => split <;> simp [*]

example : maskRow 1 0 [.fin 3, .fin 4, .fin 5] = [.pinf, .pinf, .fin (5 : Int)] := by
  apply List.ext_getElem?
  intro i
  rw [C23_mask]
  match i with
  | 0 => rfl
  | 1 => rfl
  | 2 => rfl
  | i + 3 => simp

/-! ### C22, C18 for columns -/

theorem RoundsRel_append (ops : Ops G C K) (ask : G → Int → Except PyErr (G × List (Fl K))) (n : Int → Nat) (needed : List Nat)
    (evs : Int → List (List (Fl K)) → List (CEvent K)) (xs ys : List Int) (s s' : List (G × Nat) × List (C × List Nat)) :
    RoundsRel ops ask n needed evs (xs ++ ys) s s' ↔
      ∃ s1, RoundsRel ops ask n needed evs xs s s1 ∧ RoundsRel ops ask n needed evs ys s1 s' := by
  induction xs generalizing s with
  | nil => simp [RoundsRel]
  | cons x xs ih =>
    simp only [List.cons_append, RoundsRel]
    constructor
    · rintro ⟨s1, h1, h2⟩
      obtain ⟨s2, h3, h4⟩ := (ih s1).mp h2
      exact ⟨s2, ⟨s1, h1, h3⟩, h4⟩
    · rintro ⟨s2, ⟨s1, h1, h3⟩, h4⟩
      exact ⟨s1, h1, (ih s1).mpr ⟨s2, h3, h4⟩⟩

theorem pyRange_append (a b c : Int) (h1 : a ≤ b) (h2 : b ≤ c) : pyRange a c = pyRange a b ++ pyRange b c := by
  apply List.ext_getElem?
  intro i
  rw [List.getElem?_append, pyRange_getElem?, pyRange_getElem?, pyRange_getElem?, pyRange_length]
  by_cases h : i < (b - a).toNat
  · rw [if_pos h, if_pos h, if_pos (by omega)]
  · rw [if_neg h]
    by_cases h' : i < (c - a).toNat
    · rw [if_pos h', if_pos (by omega)]; congr 1; omega
    · rw [if_neg h', if_neg (by omega)]

/-- Doing `k` columns and then `l` more is doing `k + l` columns. -/
theorem ColsDone.append (ops : Ops G C K) (mr : Nat) (needed : List Nat) (a : Int) (k l : Nat) (st st' : Calc G C) :
    ColsDone ops mr needed a (k + l) st st' ↔ ∃ st1, ColsDone ops mr needed a k st st1 ∧ ColsDone ops mr needed (a + k) l st1 st' := by
  unfold ColsDone
  rw [show (a + ((k + l : Nat) : Int)) = a + k + l by push_cast; ring, pyRange_append a (a + k) (a + k + l) (by omega) (by omega),
    ColRounds, RoundsRel_append]
  constructor
  · rintro ⟨⟨s1, h1, h2⟩, h3⟩
    refine ⟨{ st with gens := s1.1, cons := s1.2, lastCol := if k = 0 then st.lastCol else max (a + k - 1) st.lastCol },
      ⟨h1, rfl⟩, h2, ?_⟩
    rw [h3]
    simp only [Calc.mk.injEq, true_and]
    by_cases hk : k = 0 <;> by_cases hl : l = 0 <;> simp [hk, hl]
    omega
  · rintro ⟨st1, ⟨h1, e1⟩, h2, e2⟩
    have hb : st1.buffer = st.buffer := by rw [e1]
    refine ⟨⟨(st1.gens, st1.cons), h1, by rw [hb] at h2; exact h2⟩, ?_⟩
    rw [e2, e1]
    simp only [Calc.mk.injEq, true_and]
    by_cases hk : k = 0 <;> by_cases hl : l = 0 <;> simp [hk, hl]
    omega

/-- What holds of every calculator state (see `C26` for streaming; columns before `lastCol + 1` are done). -/
structure Calc.Valid (st : Calc G C) (maxCol : Int) (needed : List Nat) : Prop where
  last0 : -1 ≤ st.lastCol
  last1 : st.lastCol + 1 ≤ maxCol
  buffer : -1 ≤ st.buffer
  needed : st.Needed needed

theorem Calc.Valid.covers {st : Calc G C} {maxCol : Int} {needed : List Nat} (h : st.Valid maxCol needed) : Covers needed st.cons :=
  fun c hcm id hid => (h.needed.mem id).mpr ⟨c, hcm, hid⟩

theorem RoundsRel.ids {ops : Ops G C K} {ask : G → Int → Except PyErr (G × List (Fl K))} {n : Int → Nat} {needed : List Nat}
    {evs : Int → List (List (Fl K)) → List (CEvent K)} {xs : List Int} {s s' : List (G × Nat) × List (C × List Nat)}
    (h : RoundsRel ops ask n needed evs xs s s') : s'.2.map Prod.snd = s.2.map Prod.snd := by
  induction xs generalizing s with
  | nil => have : s' = s := h; rw [this]
  | cons x xs ih =>
    obtain ⟨s1, ⟨R, _, hf⟩, h2⟩ := h
    rw [ih h2, hf.ids]

theorem ColsDone.lastCol {ops : Ops G C K} {mr : Nat} {needed : List Nat} {a : Int} {k : Nat} {st st' : Calc G C}
    (h : ColsDone ops mr needed a k st st') : st'.lastCol = if k = 0 then st.lastCol else max (a + k - 1) st.lastCol :=
  congrArg Calc.lastCol h.2

theorem ColsDone.valid {ops : Ops G C K} {mr : Nat} {needed : List Nat} {a : Int} {k : Nat} {st st' : Calc G C} {maxCol : Int}
    (h : ColsDone ops mr needed a k st st') (ha : 0 ≤ a) (hk : k = 0 ∨ a + k ≤ maxCol) (hv : st.Valid maxCol needed) :
    st'.Valid maxCol needed := by
  have hlast := h.lastCol
  obtain ⟨h1, h2⟩ := h
  have hids := h1.ids
  have v1 := hv.last0; have v2 := hv.last1
  constructor
  · rw [hlast]; split <;> omega
  · rw [hlast]; split <;> omega
  · have : st'.buffer = st.buffer := by rw [h2]
    rw [this]; exact hv.buffer
  · constructor
    · exact hv.needed.nodup
    · intro id
      rw [hv.needed.mem]
      have e1 : ∀ l : List (C × List Nat), (∃ c ∈ l, id ∈ c.2) ↔ ∃ x ∈ l.map Prod.snd, id ∈ x := by
        intro l; simp only [List.mem_map, exists_exists_and_eq_and]
      rw [e1, e1]
      simp only at hids
      rw [hids]

/-- **C22** (columns): calculating up to `a` and then up to `b ≥ a` is the same as calculating up to `b` directly: same
deliveries, same final state. -/
theorem C22_columns (ops : Ops G C K) (maxCol maxRow : Int) (hmr : 0 ≤ maxRow) (needed : List Nat)
    (u1 u2 : PyNum) (a b : Int) (st st' : Calc G C) (hv : st.Valid maxCol needed)
    (hu1 : ratioToInt u1 st.numSeries maxCol = .ok a) (hu2 : ratioToInt u2 st.numSeries maxCol = .ok b) (hab : a ≤ b) :
    (st.calculateColumns ops maxCol maxRow needed (fun _ => false) none u1 >>=
        Calc.calculateColumns ops maxCol maxRow needed (fun _ => false) none u2) = .ok st' ↔
      st.calculateColumns ops maxCol maxRow needed (fun _ => false) none u2 = .ok st' := by
  have v1 := hv.last0; have v2 := hv.last1
  have hmc : 0 ≤ maxCol := by omega
  have hs : ∀ st : Calc G C, st.Valid maxCol needed →
      ratioToInt ((none : Option PyNum).getD (.int (st.lastCol + 1))) st.numSeries maxCol = .ok (st.lastCol + 1) := by
    intro st h
    have := h.last0; have := h.last1
    simp only [Option.getD_none, ratioToInt]
    congr 1; omega
  have c1 := fun st1 => calculateColumns_iff ops maxCol maxRow hmr hmc needed (fun _ => false) none u1 st st1 hv.needed.nodup hv.covers
    hv.buffer _ a (hs st hv) hu1 (by omega)
  have c2 := calculateColumns_iff ops maxCol maxRow hmr hmc needed (fun _ => false) none u2 st st' hv.needed.nodup hv.covers
    hv.buffer _ b (hs st hv) hu2 (by omega)
  simp only [doneBefore_false] at c1 c2
  rw [bind_ok_iff, c2]
  have hsplit : (b - (st.lastCol + 1)).toNat = (a - (st.lastCol + 1)).toNat + (b - max a (st.lastCol + 1)).toNat := by omega
  have hub := (ratioToInt_nonneg _ _ _ _ hmc hu1).2
  have hbnn := (ratioToInt_nonneg _ _ _ _ hmc hu2).2
  rw [hsplit, ColsDone.append]
  have step : ∀ st1, ColsDone ops maxRow.toNat needed (st.lastCol + 1) (a - (st.lastCol + 1)).toNat st st1 →
      (st1.calculateColumns ops maxCol maxRow needed (fun _ => false) none u2 = .ok st' ↔
        ColsDone ops maxRow.toNat needed (st.lastCol + 1 + ((a - (st.lastCol + 1)).toNat : Int)) (b - max a (st.lastCol + 1)).toNat st1 st') := by
    intro st1 h1
    have hv1 : st1.Valid maxCol needed := h1.valid (by omega) (by omega) hv
    have hl : st1.lastCol = st.lastCol + (a - (st.lastCol + 1)).toNat := by
      rw [h1.lastCol]
      split <;> omega
    have hns : st1.numSeries = st.numSeries := by rw [h1.2]
    rw [calculateColumns_iff ops maxCol maxRow hmr hmc needed (fun _ => false) none u2 st1 st' hv1.needed.nodup hv1.covers
      hv1.buffer _ b (hs st1 hv1) (by rw [hns]; exact hu2) (by have := hv1.last0; omega), doneBefore_false]
    have e1 : st1.lastCol + 1 = st.lastCol + 1 + ((a - (st.lastCol + 1)).toNat : Int) := by omega
    have e2 : (b - (st1.lastCol + 1)).toNat = (b - max a (st.lastCol + 1)).toNat := by omega
    rw [e2, e1]
  constructor
  · rintro ⟨st1, h1, h2⟩
    exact ⟨st1, (c1 st1).mp h1, (step st1 ((c1 st1).mp h1)).mp h2⟩
  · rintro ⟨st1, h1, h2⟩
    exact ⟨st1, (c1 st1).mpr h1, (step st1 h1).mpr h2⟩

theorem recCalc_valid : recCalc.Valid 3 [1] :=
  ⟨by decide, by decide, by decide, by decide, by intro id; simp [recCalc]⟩

example := fun st' => C22_columns recOps 3 3 (by decide) [1] (.int 1) (.int 2) 1 2 recCalc st' recCalc_valid rfl rfl (by decide)

/-- Calls of `calculate_columns(upto)` that are interrupted as the oracles say, one after the other. -/
def interruptedColumns (ops : Ops G C K) (maxCol maxRow : Int) (needed : List Nat) (upto : PyNum) :
    List (Int → Bool) → Calc G C → Except PyErr (Calc G C)
  | [], st => .ok st
  | ints :: rest, st => do
      interruptedColumns ops maxCol maxRow needed upto rest (← st.calculateColumns ops maxCol maxRow needed ints none upto)

/-- **C18** (columns): however often a calculation is interrupted, and wherever, calling it again until it completes gives
exactly the deliveries and the final state of one uninterrupted call. -/
theorem C18_columns (ops : Ops G C K) (maxCol maxRow : Int) (hmr : 0 ≤ maxRow) (needed : List Nat) (upto : PyNum) (b : Int)
    (oracles : List (Int → Bool)) (st st' : Calc G C) (hv : st.Valid maxCol needed)
    (hu : ratioToInt upto st.numSeries maxCol = .ok b) :
    (interruptedColumns ops maxCol maxRow needed upto oracles st >>=
        Calc.calculateColumns ops maxCol maxRow needed (fun _ => false) none upto) = .ok st' ↔
      st.calculateColumns ops maxCol maxRow needed (fun _ => false) none upto = .ok st' := by
  have hmc : 0 ≤ maxCol := by have := hv.last0; have := hv.last1; omega
  have hbnn := (ratioToInt_nonneg _ _ _ _ hmc hu)
  have hs : ∀ st : Calc G C, st.Valid maxCol needed →
      ratioToInt ((none : Option PyNum).getD (.int (st.lastCol + 1))) st.numSeries maxCol = .ok (st.lastCol + 1) := by
    intro st h
    have := h.last0; have := h.last1
    simp only [Option.getD_none, ratioToInt]
    congr 1; omega
  induction oracles generalizing st with
  | nil => rfl
  | cons ints rest ih =>
    have v1 := hv.last0; have v2 := hv.last1
    have c1 := fun st1 => calculateColumns_iff ops maxCol maxRow hmr hmc needed ints none upto st st1 hv.needed.nodup hv.covers
      hv.buffer _ b (hs st hv) hu (by omega)
    have c2 := calculateColumns_iff ops maxCol maxRow hmr hmc needed (fun _ => false) none upto st st' hv.needed.nodup hv.covers
      hv.buffer _ b (hs st hv) hu (by omega)
    simp only [doneBefore_false] at c2
    have hle := doneBefore_le ints (b - (st.lastCol + 1)).toNat (st.lastCol + 1)
    generalize hk : doneBefore ints (b - (st.lastCol + 1)).toNat (st.lastCol + 1) = k at *
    have step : ∀ st1, ColsDone ops maxRow.toNat needed (st.lastCol + 1) k st st1 →
        st1.Valid maxCol needed ∧ st1.numSeries = st.numSeries ∧
        (st1.calculateColumns ops maxCol maxRow needed (fun _ => false) none upto = .ok st' ↔
          ColsDone ops maxRow.toNat needed (st.lastCol + 1 + k) ((b - (st.lastCol + 1)).toNat - k) st1 st') := by
      intro st1 h1
      have hv1 : st1.Valid maxCol needed := h1.valid (by omega) (by omega) hv
      have hl : st1.lastCol = st.lastCol + k := by
        rw [h1.lastCol]
        split <;> omega
      have hns : st1.numSeries = st.numSeries := by rw [h1.2]
      refine ⟨hv1, hns, ?_⟩
      rw [calculateColumns_iff ops maxCol maxRow hmr hmc needed (fun _ => false) none upto st1 st' hv1.needed.nodup hv1.covers
        hv1.buffer _ b (hs st1 hv1) (by rw [hns]; exact hu) (by omega), doneBefore_false]
      have e1 : st1.lastCol + 1 = st.lastCol + 1 + k := by omega
      have e2 : (b - (st1.lastCol + 1)).toNat = (b - (st.lastCol + 1)).toNat - k := by omega
      rw [e2, e1]
    rw [c2, show (b - (st.lastCol + 1)).toNat = k + ((b - (st.lastCol + 1)).toNat - k) by omega, ColsDone.append]
    simp only [interruptedColumns]
    constructor
    · intro h
      obtain ⟨st2, h2, h3⟩ := bind_ok_iff.mp h
      obtain ⟨st1, h1, h2⟩ := bind_ok_iff.mp h2
      obtain ⟨hv1, hns, hst⟩ := step st1 ((c1 st1).mp h1)
      exact ⟨st1, (c1 st1).mp h1, hst.mp ((ih st1 hv1 (by rw [hns]; exact hu)).mp (bind_ok_iff.mpr ⟨st2, h2, h3⟩))⟩
    · rintro ⟨st1, h1, h2⟩
      obtain ⟨hv1, hns, hst⟩ := step st1 h1
      obtain ⟨st2, h3, h4⟩ := bind_ok_iff.mp ((ih st1 hv1 (by rw [hns]; exact hu)).mpr (hst.mpr h2))
      exact bind_ok_iff.mpr ⟨st2, bind_ok_iff.mpr ⟨st1, (c1 st1).mpr h1, h3⟩, h4⟩

example := fun st' => C18_columns recOps 3 3 (by decide) [1] (.int 5) 3 [fun c => c == 1, fun c => c == 1, fun c => c == 2] recCalc st' recCalc_valid rfl

/-! Concrete case: two generators returning the column index, a recording consumer, a self-join with buffer 0. -/

example : (recCalc.calculateColumns recOps 3 3 [1] (fun c => c == 2) none (.int 5)).toOption.map (fun s => (s.cons.map Prod.fst, s.gens, s.lastCol)) =
    some ([[(0, [[.pinf, .fin 0, .fin 0]]), (1, [[.fin 1, .pinf, .fin 100]])]], [(0, 0), (9, 0)], 1) := by rfl

/-- `C19_one`. -/
example := C19_one 10 7 (by decide) (by decide)

end Verif
