import Verif.Model.GeneratorIds
import Verif.Lemmas.Calculator
import Verif.Props.EndToEnd

/-!
# C102: which generators a consumer is given
-/

namespace Verif
variable {G C K α : Type}

/-- The generator that an integer stands for if there are `n`: negative ones count from the end. -/
def Spec.genOf (n : Nat) (i : Int) : Nat := if i < 0 then (n + i).toNat else i.toNat

/-- Is there a generator for the integer? -/
def Spec.IsGen (n : Nat) (i : Int) : Prop := -(n : Int) ≤ i ∧ i < n

open Spec

theorem genOf_lt {n : Nat} {i : Int} (h : IsGen n i) : genOf n i < n := by
  obtain ⟨h1, h2⟩ := h
  unfold genOf
  split <;> omega

theorem genOf_nat (n k : Nat) : genOf n (k : Int) = k := by
  unfold genOf
  rw [if_neg (by omega), Int.toNat_natCast]

theorem pyGet_gen (l : List α) (i : Int) (h : IsGen l.length i) : pyGet l i = pyGet l (genOf l.length i : Nat) := by
  obtain ⟨h1, h2⟩ := h
  unfold pyGet genOf
  by_cases hi : i < 0
  · simp only [hi, if_true]
    rw [if_neg (show ¬ (((l.length : Int) + i).toNat : Int) < 0 by omega), if_neg (by omega), if_neg (by omega), Int.toNat_natCast]
  · simp only [hi, if_false]
    rw [if_neg (show ¬ ((i.toNat : Nat) : Int) < 0 by omega), if_neg (by omega), Int.toNat_natCast]

theorem pyGet_noGen (l : List α) (i : Int) (h : ¬ IsGen l.length i) : pyGet l i = .error .indexError := by
  unfold IsGen at h
  unfold pyGet
  by_cases hi : i < 0
  · simp only [hi, if_true]
    rw [if_pos (by omega)]
  · simp only [hi, if_false]
    rw [List.getElem?_eq_none (by omega)]

theorem pySet_gen (l : List α) (i : Int) (x : α) (h : IsGen l.length i) : pySet l i x = .ok (l.set (genOf l.length i) x) := by
  have h3 := genOf_lt h
  obtain ⟨h1, h2⟩ := h
  unfold pySet
  unfold genOf at h3 ⊢
  by_cases hi : i < 0
  · simp only [hi, if_true] at h3 ⊢
    rw [if_neg (by omega), if_pos h3]
  · simp only [hi, if_false] at h3 ⊢
    rw [if_pos h3]

theorem genStepI_eq (ask : G → Except PyErr (G × List (Fl K))) (n : Nat) : ∀ (ids : List Int) (gens : List (G × Nat)) (rows : List (List (Fl K))),
    rows.length = gens.length → (∀ id ∈ ids, IsGen gens.length id) → Calc.genStepI ask n ids gens rows = Calc.genStep ask n (ids.map (genOf gens.length)) gens rows
  | [], _, _, _, _ => rfl
  | id :: ids, gens, rows, hr, h => by
    have h0 := h id (List.mem_cons_self ..)
    unfold Calc.genStepI
    rw [List.map_cons]
    unfold Calc.genStep
    rw [pyGet_gen gens id h0]
    cases pyGet gens (genOf gens.length id : Nat) with
    | error e => rfl
    | ok g =>
      show (ask g.1).bind _ = (ask g.1).bind _
      cases ask g.1 with
      | error e => rfl
      | ok x =>
        show (npRow n x.2).bind _ = (npRow n x.2).bind _
        cases npRow n x.2 with
        | error e => rfl
        | ok row =>
          show (pySet rows id row).bind _ = (pySet rows (genOf gens.length id : Nat) row).bind _
          rw [pySet_gen rows id row (by rw [hr]; exact h0), pySet_gen rows (genOf gens.length id : Nat) row (by have := genOf_lt h0; rw [hr]; constructor <;> omega)]
          show (pySet gens id (x.1, g.2)).bind _ = _
          rw [pySet_gen gens id _ h0]
          show Calc.genStepI ask n ids (gens.set (genOf gens.length id) (x.1, g.2)) (rows.set (genOf rows.length id) row) =
            Calc.genStep ask n (ids.map (genOf gens.length)) (gens.set (genOf gens.length id) (x.1, g.2)) (rows.set (genOf rows.length (genOf gens.length id : Nat)) row)
          rw [genStepI_eq ask n ids _ _ (by simp [hr]) (by intro j hj; simpa using h j (List.mem_cons_of_mem _ hj)), List.length_set, hr]
          rw [genOf_nat]

theorem genStep_lengths (ask : G → Except PyErr (G × List (Fl K))) (n : Nat) : ∀ (ids : List Nat) (gens gens' : List (G × Nat)) (rows rows' : List (List (Fl K))),
    Calc.genStep ask n ids gens rows = .ok (gens', rows') → gens'.length = gens.length ∧ rows'.length = rows.length
  | [], gens, gens', rows, rows', h => by
    cases h
    exact ⟨rfl, rfl⟩
  | id :: ids, gens, gens', rows, rows', h => by
    unfold Calc.genStep at h
    obtain ⟨g, -, h⟩ := bind_ok_iff.mp h
    obtain ⟨x, -, h⟩ := bind_ok_iff.mp h
    obtain ⟨row, -, h⟩ := bind_ok_iff.mp h
    obtain ⟨rows1, e, h⟩ := bind_ok_iff.mp h
    have := genStep_lengths ask n ids _ _ _ _ h
    rw [List.length_set, pySet_length _ _ _ _ e] at this
    exact this

/-- The consumers with the generators that their ids stand for. -/
def Calc.withIds (st : Calc G C) (cons : List (C × List Int)) : Calc G C :=
  { st with cons := cons.map fun c => (c.1, c.2.map (genOf st.gens.length)) }

theorem mapM_get_gen (rows : List (List (Fl K))) : ∀ ids : List Int, (∀ id ∈ ids, IsGen rows.length id) →
    (ids.mapM fun id : Int => pyGet rows id) = (ids.map (genOf rows.length)).mapM fun id : Nat => pyGet rows (id : Int)
  | [], _ => rfl
  | id :: ids, h => by
    rw [List.map_cons, List.mapM_cons, List.mapM_cons, pyGet_gen rows id (h id (List.mem_cons_self ..)), mapM_get_gen rows ids fun j hj => h j (List.mem_cons_of_mem _ hj)]

theorem map_bind_map {α β : Type} (x : Except PyErr α) (f : α → β) (g : β → Except PyErr β) (k : α → Except PyErr α) (f' : α → β) (h : ∀ l, g (f l) = (k l).map f') :
    (x.map f).bind g = (x.bind k).map f' := by
  cases x with
  | error e => rfl
  | ok l => exact h l

theorem consume_eq (give : C → List (List (Fl K)) → Except PyErr C) (rows : List (List (Fl K))) (n : Nat) (hn : rows.length = n) : ∀ cons : List (C × List Int),
    (∀ c ∈ cons, ∀ id ∈ c.2, IsGen n id) →
    ((cons.map fun c => (c.1, c.2.map (genOf n))).mapM fun c : C × List Nat => do
      let vals ← c.2.mapM fun id : Nat => pyGet rows (id : Int)
      let c' ← give c.1 vals
      return (c', c.2)) = (Calc.consume give rows cons).map fun cons => cons.map fun c => (c.1, c.2.map (genOf n))
  | [], _ => rfl
  | c :: cons, h => by
    have ih := consume_eq give rows n hn cons fun x hx => h x (List.mem_cons_of_mem _ hx)
    have h0 := h c (List.mem_cons_self ..)
    unfold Calc.consume at ih ⊢
    rw [List.map_cons, List.mapM_cons, List.mapM_cons, ih, mapM_get_gen rows c.2 (by rw [hn]; exact h0), hn]
    dsimp only
    cases (c.2.map (genOf n)).mapM fun id : Nat => pyGet rows (id : Int) with
    | error e => rfl
    | ok vals =>
      show (give c.1 vals >>= fun c' => pure (c', c.2.map (genOf n))) >>= _ = Except.map _ ((give c.1 vals >>= fun c' => pure (c', c.2)) >>= _)
      cases give c.1 vals with
      | error e => rfl
      | ok c' =>
        exact map_bind_map _ _ _ (fun l : List (C × List Int) => Except.ok ((c', c.2) :: l)) _ fun l => rfl

/-- The ids stay those of the consumers. -/
theorem consume_ids (give : C → List (List (Fl K)) → Except PyErr C) (rows : List (List (Fl K))) : ∀ cons cons' : List (C × List Int), Calc.consume give rows cons = .ok cons' →
    cons'.map (·.2) = cons.map (·.2)
  | [], _, h => by cases h; rfl
  | c :: cons, cons', h => by
    unfold Calc.consume at h
    rw [List.mapM_cons] at h
    obtain ⟨x, e1, h⟩ := bind_ok_iff.mp h
    obtain ⟨l, e2, h⟩ := bind_ok_iff.mp h
    obtain ⟨vals, -, e1⟩ := bind_ok_iff.mp e1
    obtain ⟨c', -, e1⟩ := bind_ok_iff.mp e1
    cases e1
    cases h
    rw [List.map_cons, List.map_cons, consume_ids give rows cons l e2]

theorem mask_length (buffer column : Int) (rows : List (List (Fl K))) : (Calc.mask buffer column rows).length = rows.length := by
  unfold Calc.mask
  split
  · rw [List.length_map]
  · rfl

/-- Every id of a consumer stands for a generator. -/
def Spec.IdsExist (n : Nat) (cons : List (C × List Int)) : Prop := ∀ c ∈ cons, ∀ id ∈ c.2, IsGen n id

theorem Spec.IdsExist.congr {n : Nat} {cons cons' : List (C × List Int)} (h : IdsExist n cons) (he : cons'.map (·.2) = cons.map (·.2)) : IdsExist n cons' := by
  intro c hc id hid
  have : c.2 ∈ cons.map (·.2) := by rw [← he]; exact List.mem_map_of_mem hc
  obtain ⟨x, hx, e⟩ := List.mem_map.mp this
  exact h x hx id (by rw [e]; exact hid)

theorem columnStepI_eq (ops : Ops G C K) (needed : List Int) (maxRow : Nat) (column : Int) (st : Calc G C) (cons : List (C × List Int)) (rows : List (List (Fl K)))
    (hr : rows.length = st.gens.length) (hn : ∀ id ∈ needed, IsGen st.gens.length id) (hc : IdsExist st.gens.length cons) :
    Calc.columnStep ops (needed.map (genOf st.gens.length)) maxRow column (st.withIds cons, rows) =
        (Calc.columnStepI ops needed maxRow column st cons rows).map (fun s => (s.1.withIds s.2.1, s.2.2)) ∧
      ∀ s, Calc.columnStepI ops needed maxRow column st cons rows = .ok s →
        s.1.gens.length = st.gens.length ∧ s.2.2.length = st.gens.length ∧ s.2.1.map (·.2) = cons.map (·.2) ∧ s.1.numSeries = st.numSeries ∧ s.1.numQuery = st.numQuery := by
  unfold Calc.columnStep Calc.columnStepI
  rw [genStepI_eq _ _ _ _ _ hr hn]
  show ((Calc.genStep (fun g => ops.calcColumn g column) maxRow (needed.map (genOf st.gens.length)) st.gens rows).bind _) = _ ∧ _
  cases hg : Calc.genStep (fun g => ops.calcColumn g column) maxRow (needed.map (genOf st.gens.length)) st.gens rows with
  | error e => exact ⟨rfl, fun s h => by cases h⟩
  | ok x =>
    obtain ⟨gens, rows'⟩ := x
    obtain ⟨l1, l2⟩ := genStep_lengths _ _ _ _ _ _ _ hg
    have hm : (Calc.mask st.buffer column rows').length = st.gens.length := by rw [mask_length, l2, hr]
    have key := consume_eq (fun c vals => ops.processColumn c column vals) (Calc.mask st.buffer column rows') st.gens.length hm cons hc
    refine ⟨?_, ?_⟩
    · show (((cons.map fun c : C × List Int => (c.1, c.2.map (genOf st.gens.length))).mapM fun c : C × List Nat => do
        let vals ← c.2.mapM fun id : Nat => pyGet (Calc.mask st.buffer column rows') (id : Int)
        let c' ← ops.processColumn c.1 column vals
        return (c', c.2)).bind _) = ((Calc.consume (fun c vals => ops.processColumn c column vals) (Calc.mask st.buffer column rows') cons).bind _).map _
      rw [key]
      cases Calc.consume (fun c vals => ops.processColumn c column vals) (Calc.mask st.buffer column rows') cons with
      | error e => rfl
      | ok cons' =>
        show Except.ok _ = Except.ok _
        unfold Calc.withIds
        simp only [l1]
    · intro s h
      replace h : (Calc.consume (fun c vals => ops.processColumn c column vals) (Calc.mask st.buffer column rows') cons >>= fun cons =>
        pure (({ st with gens := gens, lastCol := max column st.lastCol } : Calc G C), cons, Calc.mask st.buffer column rows')) = .ok s := h
      obtain ⟨cons', e1, e2⟩ := bind_ok_iff.mp h
      cases e2
      exact ⟨l1, hm, consume_ids _ _ _ _ e1, rfl, rfl⟩

theorem columnLoopI_eq (ops : Ops G C K) (needed : List Int) (maxRow : Nat) (ints : Int → Bool) (k : Nat) (hn : ∀ id ∈ needed, IsGen k id) :
    ∀ (n : Nat) (column : Int) (st : Calc G C) (cons : List (C × List Int)) (rows : List (List (Fl K))), st.gens.length = k → rows.length = k → IdsExist k cons →
      (Calc.columnLoop ops (needed.map (genOf k)) maxRow ints n column (st.withIds cons, rows)).map (·.1) =
          (Calc.columnLoopI ops needed maxRow ints n column st cons rows).map (fun s => s.1.withIds s.2) ∧
        ∀ s, Calc.columnLoopI ops needed maxRow ints n column st cons rows = .ok s → s.1.gens.length = k ∧ s.2.map (·.2) = cons.map (·.2)
  | 0, column, st, cons, rows, h1, h2, h3 => ⟨rfl, fun s h => by cases h; exact ⟨h1, rfl⟩⟩
  | n + 1, column, st, cons, rows, h1, h2, h3 => by
    unfold Calc.columnLoop Calc.columnLoopI
    by_cases hi : ints column = true
    · rw [if_pos hi, if_pos hi]
      exact ⟨rfl, fun s h => by cases h; exact ⟨h1, rfl⟩⟩
    · rw [if_neg hi, if_neg hi]
      obtain ⟨e1, e2⟩ := columnStepI_eq ops needed maxRow column st cons rows (by rw [h1, h2]) (by rw [h1]; exact hn) (by rw [h1]; exact h3)
      rw [h1] at e1 e2
      rw [e1]
      cases hs : Calc.columnStepI ops needed maxRow column st cons rows with
      | error e => exact ⟨rfl, fun s h => by cases h⟩
      | ok s =>
        obtain ⟨l1, l2, l3, -, -⟩ := e2 s hs
        obtain ⟨f1, f2⟩ := columnLoopI_eq ops needed maxRow ints k hn n (column + 1) s.1 s.2.1 s.2.2 l1 l2 (h3.congr l3)
        exact ⟨f1, fun s' h => ⟨(f2 s' h).1, by rw [(f2 s' h).2, l3]⟩⟩

/-- **C102, columns.** If every id of every consumer stands for one of the `n` generators there are (-`n` to `n` - 1), `calculate_columns` does what it does with the generators that they
stand for: it raises the same exceptions, delivers the same distances and leaves the same state, and the ids stay as they are. Partial: ids of no generator raise, but only then
(`C102_no_generator`); what a negative id stands for changes with the next generator (`C102_negative_wrong`). -/
theorem C102_columns_partial (ops : Ops G C K) (maxCol maxRow : Int) (needed : List Int) (ints : Int → Bool) (start : Option PyNum) (upto : PyNum) (st : Calc G C)
    (cons : List (C × List Int)) (hn : ∀ id, id ∈ needed ↔ ∃ c ∈ cons, id ∈ c.2) (hc : IdsExist st.gens.length cons) :
    (st.withIds cons).calculateColumns ops maxCol maxRow (needed.map (genOf st.gens.length)) ints start upto =
        (st.calculateColumnsI ops maxCol maxRow needed ints start upto cons).map (fun s => s.1.withIds s.2) ∧
      ∀ s, st.calculateColumnsI ops maxCol maxRow needed ints start upto cons = .ok s → s.1.gens.length = st.gens.length ∧ s.2.map (·.2) = cons.map (·.2) := by
  have hn' : ∀ id ∈ needed, IsGen st.gens.length id := fun id h => by
    obtain ⟨c, h1, h2⟩ := (hn id).mp h
    exact hc c h1 id h2
  unfold Calc.calculateColumns Calc.calculateColumnsI
  show (ratioToInt (start.getD (.int (st.lastCol + 1))) st.numSeries maxCol).bind _ = Except.map _ ((ratioToInt (start.getD (.int (st.lastCol + 1))) st.numSeries maxCol).bind _) ∧ _
  cases ratioToInt (start.getD (.int (st.lastCol + 1))) st.numSeries maxCol with
  | error e => exact ⟨rfl, fun s h => by cases h⟩
  | ok a =>
    show (ratioToInt upto st.numSeries maxCol).bind _ = Except.map _ ((ratioToInt upto st.numSeries maxCol).bind _) ∧ _
    cases ratioToInt upto st.numSeries maxCol with
    | error e => exact ⟨rfl, fun s h => by cases h⟩
    | ok b =>
      show (npFullNan K st.gens.length maxRow).bind _ = Except.map _ ((npFullNan K st.gens.length maxRow).bind _) ∧ _
      cases hf : npFullNan K st.gens.length maxRow with
      | error e => exact ⟨rfl, fun s h => by simp only [bind, Except.bind] at h; cases h⟩
      | ok rows =>
        have hl : rows.length = st.gens.length := by
          unfold npFullNan at hf
          split at hf
          · cases hf
          · cases hf; simp
        obtain ⟨f1, f2⟩ := columnLoopI_eq ops needed maxRow.toNat ints st.gens.length hn' (b - a).toNat a st cons rows rfl hl hc
        refine ⟨?_, f2⟩
        show _ = Except.map _ (Calc.columnLoopI ops needed maxRow.toNat ints (b - a).toNat a st cons rows)
        rw [← f1]
        show (Calc.columnLoop ops _ maxRow.toNat ints (b - a).toNat a (st.withIds cons, rows)).bind _ = _
        cases Calc.columnLoop ops (needed.map (genOf st.gens.length)) maxRow.toNat ints (b - a).toNat a (st.withIds cons, rows) <;> rfl

/-- The state of an `AnytimeCalculator` with such consumers. -/
def Anytime.withIds (st : Anytime G C K) (cons : List (C × List Int)) : Anytime G C K := { st with base := st.base.withIds cons }

theorem diagonalStepI_eq (ops : Ops G C K) (needed : List Int) (d : Int) (st : Anytime G C K) (cons : List (C × List Int))
    (hn : ∀ id ∈ needed, IsGen st.base.gens.length id) (hc : IdsExist st.base.gens.length cons) :
    Anytime.diagonalStep ops (needed.map (genOf st.base.gens.length)) d (st.withIds cons) = (Anytime.diagonalStepI ops needed d st cons).map (fun s => s.1.withIds s.2) ∧
      ∀ s, Anytime.diagonalStepI ops needed d st cons = .ok s →
        s.1.base.gens.length = st.base.gens.length ∧ s.2.map (·.2) = cons.map (·.2) ∧ s.1.next = st.next + 1 := by
  set len := diagLength st.base.numQuery st.base.numSeries d with hlen
  have hr : (List.replicate st.base.gens.length (List.replicate len.toNat (Fl.nan : Fl K))).length = st.base.gens.length := List.length_replicate
  unfold Anytime.diagonalStep Anytime.diagonalStepI
  simp only [← hlen]
  rw [genStepI_eq _ _ _ _ _ hr hn]
  show ((Calc.genStep (fun g => ops.calcDiagonal g d) len.toNat (needed.map (genOf st.base.gens.length)) st.base.gens
    (List.replicate st.base.gens.length (List.replicate len.toNat (Fl.nan : Fl K)))).bind _) = _ ∧ _
  cases hg : Calc.genStep (fun g => ops.calcDiagonal g d) len.toNat (needed.map (genOf st.base.gens.length)) st.base.gens
      (List.replicate st.base.gens.length (List.replicate len.toNat (Fl.nan : Fl K))) with
  | error e => exact ⟨rfl, fun s h => by cases h⟩
  | ok x =>
    obtain ⟨gens, rows'⟩ := x
    obtain ⟨l1, l2⟩ := genStep_lengths _ _ _ _ _ _ _ hg
    have hm : rows'.length = st.base.gens.length := by rw [l2, hr]
    have key := consume_eq (fun c vals => Anytime.deliverDiagonal ops st.base.selfJoin d c vals) rows' st.base.gens.length hm cons hc
    refine ⟨?_, ?_⟩
    · show (((cons.map fun c : C × List Int => (c.1, c.2.map (genOf st.base.gens.length))).mapM fun c : C × List Nat => do
        let vals ← c.2.mapM fun id : Nat => pyGet rows' (id : Int)
        let c' ← Anytime.deliverDiagonal ops st.base.selfJoin d c.1 vals
        return (c', c.2)).bind _) = ((Calc.consume (fun c vals => Anytime.deliverDiagonal ops st.base.selfJoin d c vals) rows' cons).bind _).map _
      rw [key]
      cases Calc.consume (fun c vals => Anytime.deliverDiagonal ops st.base.selfJoin d c vals) rows' cons with
      | error e => rfl
      | ok cons' =>
        show Except.ok _ = Except.ok _
        unfold Anytime.withIds Calc.withIds
        simp only [l1]
        rfl
    · intro s h
      replace h : (Calc.consume (fun c vals => Anytime.deliverDiagonal ops st.base.selfJoin d c vals) rows' cons >>= fun cons =>
        pure (({ st with base := { st.base with gens := gens }, calculated := st.calculated + len, next := st.next + 1 } : Anytime G C K), cons)) = .ok s := h
      obtain ⟨cons', e1, e2⟩ := bind_ok_iff.mp h
      cases e2
      exact ⟨l1, consume_ids _ _ _ _ e1, rfl⟩

theorem diagonalLoopI_eq (ops : Ops G C K) (needed : List Int) (ints : Nat → Bool) (v : Int) (k : Nat) (hn : ∀ id ∈ needed, IsGen k id) :
    ∀ (ds : List Int) (st : Anytime G C K) (cons : List (C × List Int)), st.base.gens.length = k → IdsExist k cons →
      Anytime.diagonalLoop ops (needed.map (genOf k)) ints v ds (st.withIds cons) = (Anytime.diagonalLoopI ops needed ints v ds st cons).map (fun s => s.1.withIds s.2) ∧
        ∀ s, Anytime.diagonalLoopI ops needed ints v ds st cons = .ok s → s.1.base.gens.length = k ∧ s.2.map (·.2) = cons.map (·.2)
  | [], st, cons, h1, h3 => by
    unfold Anytime.diagonalLoop Anytime.diagonalLoopI
    by_cases hi : st.calculated < v ∧ ints st.next = false
    · rw [if_pos hi, if_pos (show (st.withIds cons).calculated < v ∧ ints (st.withIds cons).next = false from hi)]
      exact ⟨rfl, fun s h => by cases h⟩
    · rw [if_neg hi, if_neg (show ¬ ((st.withIds cons).calculated < v ∧ ints (st.withIds cons).next = false) from hi)]
      exact ⟨rfl, fun s h => by cases h; exact ⟨h1, rfl⟩⟩
  | d :: ds, st, cons, h1, h3 => by
    unfold Anytime.diagonalLoop Anytime.diagonalLoopI
    by_cases hi : st.calculated < v ∧ ints st.next = false
    · rw [if_pos hi, if_pos (show (st.withIds cons).calculated < v ∧ ints (st.withIds cons).next = false from hi)]
      obtain ⟨e1, e2⟩ := diagonalStepI_eq ops needed d st cons (by rw [h1]; exact hn) (by rw [h1]; exact h3)
      rw [h1] at e1 e2
      rw [e1]
      cases hs : Anytime.diagonalStepI ops needed d st cons with
      | error e => exact ⟨rfl, fun s h => by cases h⟩
      | ok s =>
        obtain ⟨l1, l3, -⟩ := e2 s hs
        obtain ⟨f1, f2⟩ := diagonalLoopI_eq ops needed ints v k hn ds s.1 s.2 l1 (h3.congr l3)
        exact ⟨f1, fun s' h => ⟨(f2 s' h).1, by rw [(f2 s' h).2, l3]⟩⟩
    · rw [if_neg hi, if_neg (show ¬ ((st.withIds cons).calculated < v ∧ ints (st.withIds cons).next = false) from hi)]
      exact ⟨rfl, fun s h => by cases h; exact ⟨h1, rfl⟩⟩

/-- **C102, diagonals.** The same for `calculate_diagonals`. -/
theorem C102_diagonals_partial (ops : Ops G C K) (needed : List Int) (ints : Nat → Bool) (partial_ : PyNum) (st : Anytime G C K) (cons : List (C × List Int))
    (hn : ∀ id, id ∈ needed ↔ ∃ c ∈ cons, id ∈ c.2) (hc : IdsExist st.base.gens.length cons) :
    (st.withIds cons).calculateDiagonals ops (needed.map (genOf st.base.gens.length)) ints partial_ =
        (st.calculateDiagonalsI ops needed ints partial_ cons).map (fun s => s.1.withIds s.2) ∧
      ∀ s, st.calculateDiagonalsI ops needed ints partial_ cons = .ok s → s.1.base.gens.length = st.base.gens.length ∧ s.2.map (·.2) = cons.map (·.2) := by
  have hn' : ∀ id ∈ needed, IsGen st.base.gens.length id := fun id h => by
    obtain ⟨c, h1, h2⟩ := (hn id).mp h
    exact hc c h1 id h2
  unfold Anytime.calculateDiagonals Anytime.calculateDiagonalsI
  show (npFullNan K st.base.gens.length (min st.base.numQuery st.base.numSeries)).bind _ = Except.map _ ((npFullNan K st.base.gens.length (min st.base.numQuery st.base.numSeries)).bind _) ∧ _
  cases npFullNan K st.base.gens.length (min st.base.numQuery st.base.numSeries) with
  | error e => exact ⟨rfl, fun s h => by simp only [bind, Except.bind] at h; cases h⟩
  | ok _ =>
    show (ratioToInt partial_ st.total st.total).bind _ = Except.map _ ((ratioToInt partial_ st.total st.total).bind _) ∧ _
    cases ratioToInt partial_ st.total st.total with
    | error e => exact ⟨rfl, fun s h => by simp only [bind, Except.bind] at h; cases h⟩
    | ok v => exact diagonalLoopI_eq ops needed ints v st.base.gens.length hn' (st.order.drop st.next) st cons rfl hc

/-- Asking for a generator that is not there raises; it raises `IndexError` if the generators (which satisfy `P`) answer. -/
theorem genStepI_noGen (ask : G → Except PyErr (G × List (Fl K))) (n : Nat) (P : G → Prop) (hP : ∀ g, P g → ∃ x, ask g = .ok x ∧ P x.1 ∧ ∃ r, npRow n x.2 = .ok r) :
    ∀ (ids : List Int) (gens : List (G × Nat)) (rows : List (List (Fl K))), rows.length = gens.length → (∃ id ∈ ids, ¬ IsGen gens.length id) →
      ∃ e, Calc.genStepI ask n ids gens rows = .error e ∧ ((∀ g ∈ gens, P g.1) → e = .indexError)
  | [], _, _, _, ⟨_, h, _⟩ => by cases h
  | id :: ids, gens, rows, hr, ⟨j, hj, hbad⟩ => by
    unfold Calc.genStepI
    by_cases h0 : IsGen gens.length id
    · have hlt := genOf_lt h0
      have hg : pyGet gens id = .ok gens[genOf gens.length id] := by
        rw [pyGet_gen gens id h0, pyGet]
        rw [if_neg (by omega), if_neg (by omega), Int.toNat_natCast, List.getElem?_eq_getElem hlt]
      rw [hg]
      set g := gens[genOf gens.length id] with hgd
      show ∃ e, (ask g.1).bind _ = .error e ∧ _
      cases hx : ask g.1 with
      | error e =>
        refine ⟨e, rfl, fun h => ?_⟩
        obtain ⟨x, hx', -⟩ := hP g.1 (h g (List.getElem_mem hlt))
        rw [hx] at hx'
        cases hx'
      | ok x =>
        show ∃ e, (npRow n x.2).bind _ = .error e ∧ _
        cases hw : npRow n x.2 with
        | error e =>
          refine ⟨e, rfl, fun h => ?_⟩
          obtain ⟨x', hx', -, r, hr⟩ := hP g.1 (h g (List.getElem_mem hlt))
          rw [hx] at hx'
          cases hx'
          rw [hw] at hr
          cases hr
        | ok row =>
          show ∃ e, (pySet rows id row).bind _ = .error e ∧ _
          rw [pySet_gen rows id row (by rw [hr]; exact h0)]
          show ∃ e, (pySet gens id (x.1, g.2)).bind _ = .error e ∧ _
          rw [pySet_gen gens id _ h0]
          obtain ⟨e, e1, e2⟩ := genStepI_noGen ask n P hP ids (gens.set (genOf gens.length id) (x.1, g.2)) (rows.set (genOf rows.length id) row) (by simp [hr])
            ⟨j, by
              rcases List.mem_cons.mp hj with h | h
              · exact absurd (h ▸ h0) hbad
              · exact h, by simpa using hbad⟩
          refine ⟨e, e1, fun h => e2 fun y hy => ?_⟩
          rcases List.mem_or_eq_of_mem_set hy with hy | hy
          · exact h y hy
          · rw [hy]
            obtain ⟨x', hx', hp, -⟩ := hP g.1 (h g (List.getElem_mem hlt))
            rw [hx] at hx'
            cases hx'
            exact hp
    · rw [pyGet_noGen gens id h0]
      exact ⟨_, rfl, fun _ => rfl⟩

/-- **C102, adding.** `add_consumer` does not look at the ids: lists of ids as long as each other do the same for the consumers, whether there are generators for them or not. With ids of
generators it does what it does with the generators that they stand for. -/
theorem C102_add (ops : Ops G C K) (st : Calc G C) (cons : List (C × List Int)) (ids ids' : List Int) (c : C) (hl : ids'.length = ids.length) :
    (st.addConsumerI ops cons ids c).map (·.map (·.1)) = (st.addConsumerI ops cons ids' c).map (·.map (·.1)) ∧
      (st.withIds cons).addConsumer ops (ids.map (genOf st.gens.length)) c = (st.addConsumerI ops cons ids c).map st.withIds := by
  unfold Calc.addConsumerI Calc.addConsumer
  rw [List.length_map, hl]
  constructor
  · show Except.map _ ((ops.initialise c ids.length st.numQuery st.numSeries).bind _) = Except.map _ ((ops.initialise c ids.length st.numQuery st.numSeries).bind _)
    cases ops.initialise c ids.length st.numQuery st.numSeries with
    | error e => rfl
    | ok c' =>
      show Except.ok _ = Except.ok _
      simp
  · show (ops.initialise c ids.length st.numQuery st.numSeries).bind _ = Except.map _ ((ops.initialise c ids.length st.numQuery st.numSeries).bind _)
    cases ops.initialise c ids.length st.numQuery st.numSeries with
    | error e => rfl
    | ok c' =>
      show Except.ok _ = Except.ok _
      unfold Calc.withIds
      simp

/-- **C102, no generator.** If an id of a consumer stands for no generator, `calculate_columns` raises as soon as there is a column to calculate, and `IndexError` if the generators that
there are answer; with no column to calculate it does nothing. -/
theorem C102_no_generator (ops : Ops G C K) (maxCol maxRow : Int) (needed : List Int) (ints : Int → Bool) (start : Option PyNum) (upto : PyNum) (st : Calc G C)
    (cons : List (C × List Int)) (hn : ∀ id, id ∈ needed ↔ ∃ c ∈ cons, id ∈ c.2) (hbad : ¬ IdsExist st.gens.length cons) (hrow : 0 ≤ maxRow) (a b : Int)
    (ha : ratioToInt (start.getD (.int (st.lastCol + 1))) st.numSeries maxCol = .ok a) (hb : ratioToInt upto st.numSeries maxCol = .ok b) :
    (a < b ∧ ints a = false → ∃ e, st.calculateColumnsI ops maxCol maxRow needed ints start upto cons = .error e ∧
      ∀ P : G → Prop, (∀ g, P g → ∃ x, ops.calcColumn g a = .ok x ∧ P x.1 ∧ ∃ r, npRow maxRow.toNat x.2 = .ok r) → (∀ g ∈ st.gens, P g.1) → e = .indexError) ∧
      (¬ (a < b ∧ ints a = false) → st.calculateColumnsI ops maxCol maxRow needed ints start upto cons = .ok (st, cons)) := by
  have hbad' : ∃ id ∈ needed, ¬ IsGen st.gens.length id := by
    by_contra h
    push Not at h
    exact hbad fun c hc id hid => h id ((hn id).mpr ⟨c, hc, hid⟩)
  have e0 : st.calculateColumnsI ops maxCol maxRow needed ints start upto cons =
      Calc.columnLoopI ops needed maxRow.toNat ints (b - a).toNat a st cons (List.replicate st.gens.length (List.replicate maxRow.toNat .nan)) := by
    unfold Calc.calculateColumnsI
    rw [ha, hb, npFullNan, if_neg (by omega)]
    rfl
  rw [e0]
  constructor
  · rintro ⟨hab, hi⟩
    obtain ⟨n, hn⟩ : ∃ n, (b - a).toNat = n + 1 := ⟨(b - a).toNat - 1, by omega⟩
    rw [hn, Calc.columnLoopI, if_neg (by rw [hi]; decide)]
    unfold Calc.columnStepI
    cases hs : Calc.genStepI (fun g => ops.calcColumn g a) maxRow.toNat needed st.gens (List.replicate st.gens.length (List.replicate maxRow.toNat .nan)) with
    | ok x =>
      exfalso
      obtain ⟨e, he, -⟩ := genStepI_noGen (fun g => ops.calcColumn g a) maxRow.toNat (fun _ => False) (fun _ h => h.elim) needed st.gens
        (List.replicate st.gens.length (List.replicate maxRow.toNat .nan)) (by simp) hbad'
      rw [hs] at he
      cases he
    | error e =>
      refine ⟨e, rfl, fun P hP hg => ?_⟩
      obtain ⟨e', he, hE⟩ := genStepI_noGen (fun g => ops.calcColumn g a) maxRow.toNat P hP needed st.gens
        (List.replicate st.gens.length (List.replicate maxRow.toNat .nan)) (by simp) hbad'
      rw [hs] at he
      cases he
      exact hE hg
  · intro h
    by_cases hab : a < b
    · obtain ⟨n, hn⟩ : ∃ n, (b - a).toNat = n + 1 := ⟨(b - a).toNat - 1, by omega⟩
      rw [hn, Calc.columnLoopI, if_pos (by by_contra hc; exact h ⟨hab, by simpa using hc⟩)]
    · rw [show (b - a).toNat = 0 by omega]
      rfl

/-- **C102, no generator, diagonals.** The same for the first diagonal that `calculate_diagonals` calculates. -/
theorem C102_no_generator_diagonals (ops : Ops G C K) (needed : List Int) (ints : Nat → Bool) (partial_ : PyNum) (st : Anytime G C K) (cons : List (C × List Int))
    (hn : ∀ id, id ∈ needed ↔ ∃ c ∈ cons, id ∈ c.2) (hbad : ¬ IdsExist st.base.gens.length cons) (hs : 0 ≤ st.base.numSeries) (hq : 0 ≤ st.base.numQuery) (v : Int)
    (hv : ratioToInt partial_ st.total st.total = .ok v) :
    (st.calculated < v ∧ ints st.next = false → ∃ e, st.calculateDiagonalsI ops needed ints partial_ cons = .error e ∧
      ∀ P : G → Prop, (∀ d ∈ st.order, ∀ g, P g → ∃ x, ops.calcDiagonal g d = .ok x ∧ P x.1 ∧ ∃ r, npRow (diagLength st.base.numQuery st.base.numSeries d).toNat x.2 = .ok r) →
        (∀ g ∈ st.base.gens, P g.1) → e = .indexError) ∧
      (¬ (st.calculated < v ∧ ints st.next = false) → st.calculateDiagonalsI ops needed ints partial_ cons = .ok (st, cons)) := by
  have hbad' : ∃ id ∈ needed, ¬ IsGen st.base.gens.length id := by
    by_contra h
    push Not at h
    exact hbad fun c hc id hid => h id ((hn id).mpr ⟨c, hc, hid⟩)
  have e0 : st.calculateDiagonalsI ops needed ints partial_ cons = Anytime.diagonalLoopI ops needed ints v (st.order.drop st.next) st cons := by
    unfold Anytime.calculateDiagonalsI
    rw [hv, npFullNan, if_neg (by omega)]
    rfl
  rw [e0]
  constructor
  · intro hi
    cases hd : st.order.drop st.next with
    | nil =>
      refine ⟨.indexError, ?_, fun _ _ _ => rfl⟩
      rw [Anytime.diagonalLoopI, if_pos hi]
    | cons d rest =>
      rw [Anytime.diagonalLoopI, if_pos hi]
      unfold Anytime.diagonalStepI
      have hm : d ∈ st.order := List.mem_of_mem_drop (by rw [hd]; exact List.mem_cons_self ..)
      cases hs : Calc.genStepI (fun g => ops.calcDiagonal g d) (diagLength st.base.numQuery st.base.numSeries d).toNat needed st.base.gens
        (List.replicate st.base.gens.length (List.replicate (diagLength st.base.numQuery st.base.numSeries d).toNat (Fl.nan : Fl K))) with
      | ok x =>
        exfalso
        obtain ⟨e, he, -⟩ := genStepI_noGen (fun g => ops.calcDiagonal g d) (diagLength st.base.numQuery st.base.numSeries d).toNat (fun _ => False) (fun _ h => h.elim) needed st.base.gens
          (List.replicate st.base.gens.length (List.replicate (diagLength st.base.numQuery st.base.numSeries d).toNat (Fl.nan : Fl K))) (by simp) hbad'
        rw [hs] at he
        cases he
      | error e =>
        refine ⟨e, by dsimp only; rw [hs]; rfl, fun P hP hg => ?_⟩
        obtain ⟨e', he, hE⟩ := genStepI_noGen (fun g => ops.calcDiagonal g d) (diagLength st.base.numQuery st.base.numSeries d).toNat P (hP d hm) needed st.base.gens
          (List.replicate st.base.gens.length (List.replicate (diagLength st.base.numQuery st.base.numSeries d).toNat (Fl.nan : Fl K))) (by simp) hbad'
        rw [hs] at he
        cases he
        exact hE hg
  · intro h
    cases st.order.drop st.next with
    | nil => rw [Anytime.diagonalLoopI, if_neg h]
    | cons d rest => rw [Anytime.diagonalLoopI, if_neg h]

/-- An `AnytimeCalculator` over two channels, `[1, 2, 4]` and `[10, 20, 50]`, against `[0, 3]` and `[0, 30]`, with m = 1 (squared distances), one generator per channel in `chans`; the second
is added after the first column if `late`. A `DistanceMatrix` for `ids`, first column, the other columns: the matrix. -/
def exIds (late : Bool) (ids : List Int) : Except PyErr (List (List (Fl ℚ))) := do
  let ops := DM.ops (Eucl.genOps zeroMem (fun x : ℚ => x))
  let st ← Anytime.init id 1 [[.fin 1, .fin 2, .fin 4], [.fin 10, .fin 20, .fin 50]] (some [[.fin 0, .fin 3], [.fin 0, .fin 30]]) none
  let st ← st.addGenerator (Eucl.prepare zeroMem) 0
  let st ← if late then pure st else st.addGenerator (Eucl.prepare zeroMem) 1
  let cons ← st.base.addConsumerI ops [] ids ⟨0, 0, fun _ _ => .nan⟩
  let s ← st.base.calculateColumnsI ops 3 2 ids (fun _ => false) none (.int 1) cons
  let st ← if late then ({ st with base := s.1 } : Anytime _ _ ℚ).addGenerator (Eucl.prepare zeroMem) 1 else pure { st with base := s.1 }
  let s ← st.base.calculateColumnsI ops 3 2 ids (fun _ => false) none (.float (.fin 1)) s.2
  let c ← pyGet s.2 0
  return (List.range 2).map fun r => (List.range 3).map (c.1.m r)

/-- The ids -1 and 0 stand for generators if there are two, 2 and -3 do not. -/
example : IdsExist 2 [((), [-1, 0])] ∧ ¬ IdsExist 2 [((), [0, 2])] ∧ ¬ IdsExist 2 [((), [-3])] := by
  refine ⟨?_, fun h => ?_, fun h => ?_⟩
  · intro c hc id hid
    simp only [List.mem_singleton] at hc
    subst hc
    simp only [List.mem_cons, List.not_mem_nil, or_false] at hid
    rcases hid with rfl | rfl <;> constructor <;> norm_num
  · have := (h _ (List.mem_singleton.mpr rfl) 2 (by simp)).2
    norm_num at this
  · have := (h _ (List.mem_singleton.mpr rfl) (-3) (by simp)).1
    norm_num at this

/-- With both generators there, -1 is the second one and -2 the first: the squared distances of the second and of the first channel. -/
example : exIds false [-1] = exIds false [1] ∧ exIds false [-2] = exIds false [0] ∧
    exIds false [-1] = .ok [[.fin 100, .fin 400, .fin 2500], [.fin 400, .fin 100, .fin 400]] ∧
    exIds false [-2] = .ok [[.fin 1, .fin 4, .fin 16], [.fin 4, .fin 1, .fin 1]] := by decide +kernel

/-- Ids of no generator: `IndexError`, although `add_consumer` accepted them; so does an id of a generator that is added later. -/
example : exIds false [2] = .error .indexError ∧ exIds false [-3] = .error .indexError ∧ exIds true [1] = .error .indexError := by decide +kernel

/-- **C102, negative ids: the code violates the claim.** A consumer of the generator -1 that was added when there was one generator is given the distances of another generator after
`add_generator`: one distance matrix with a column of the first channel and columns of the second. -/
theorem C102_negative_wrong : exIds true [-1] = .ok [[.fin 1, .fin 400, .fin 2500], [.fin 4, .fin 100, .fin 400]] ∧
    exIds true [0] = .ok [[.fin 1, .fin 4, .fin 16], [.fin 4, .fin 1, .fin 1]] := by decide +kernel

/-- Two generators of two channels, no consumers yet. -/
def exIdsCalc : Calc (ColCache ℚ) (DM ℚ) := { selfJoin := false, m := 1, nDim := 2, numSeries := 3, numQuery := 2, buffer := -1, gens := [], cons := [], lastCol := -1 }

/-- `C102_columns_partial`: ids -1 and 0 for two generators. -/
example (a b : ColCache ℚ) (c : DM ℚ) := C102_columns_partial (DM.ops (Eucl.genOps zeroMem (fun x : ℚ => x))) 3 2 [-1, 0] (fun _ => false) none (.int 1) {exIdsCalc with gens := [(a, 0), (b, 1)]}
  [(c, [-1]), (c, [0])] (by simp) (by simp [IdsExist, IsGen])

/-- `C102_add`. -/
example := C102_add (DM.ops (Eucl.genOps zeroMem (fun x : ℚ => x))) exIdsCalc [] [-1] [7] DM.new rfl

/-- `C102_no_generator`: id 2 for two generators. -/
example (a b : ColCache ℚ) (c : DM ℚ) := C102_no_generator (DM.ops (Eucl.genOps zeroMem (fun x : ℚ => x))) 3 2 [0, 2] (fun _ => false) none (.int 1) {exIdsCalc with gens := [(a, 0), (b, 1)]}
  [(c, [0, 2])] (by simp) (by simp [IdsExist, IsGen]) (by decide) 0 1 rfl rfl

/-- `C102_diagonals_partial` and `C102_no_generator_diagonals`: the diagonals -1 to 2. -/
example (a b : ColCache ℚ) (c : DM ℚ) := C102_diagonals_partial (DM.ops (Eucl.genOps zeroMem (fun x : ℚ => x))) [-1, 0] (fun _ => false) (.int 3)
  ⟨{exIdsCalc with gens := [(a, 0), (b, 1)]}, [[.fin 1, .fin 2, .fin 4]], [[.fin 0, .fin 3]], [2, -1, 0, 1], 6, 0, 0⟩ [(c, [-1]), (c, [0])] (by simp) (by simp [IdsExist, IsGen])

end Verif
