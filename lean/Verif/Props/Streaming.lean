import Verif.Props.Columns

/-!
# C25, C26: `StreamingCalculator`
-/

namespace Verif
open Spec Streaming
variable {G C K : Type}

/-! ### Event lists -/

theorem seriesShift_append (a b : List (CEvent K)) : seriesShift (a ++ b) = seriesShift a + seriesShift b := by
  induction a with
  | nil => simp [seriesShift]
  | cons e a ih => cases e <;> simp [seriesShift, ih]; ring

theorem queryShift_append (a b : List (CEvent K)) : queryShift (a ++ b) = queryShift a + queryShift b := by
  induction a with
  | nil => simp [queryShift]
  | cons e a ih => cases e <;> simp [queryShift, ih]; ring

theorem streamCols_append (s : Int) (a b : List (CEvent K)) :
    streamCols s (a ++ b) = streamCols s a ++ streamCols (s + seriesShift a) b := by
  induction a generalizing s with
  | nil => simp [streamCols, seriesShift]
  | cons e a ih => cases e <;> simp [streamCols, seriesShift, ih, add_assoc]

theorem shiftCons_iff (ops : Ops G C K) (f : C → Except PyErr C) (ev : CEvent K) (hf : ∀ c, f c = ev.apply ops c)
    (cons cons' : List (C × List Nat)) : shiftCons f cons = .ok cons' ↔ AllFed ops (fun _ => [ev]) cons cons' := by
  unfold shiftCons AllFed
  rw [mapM_ok_iff]
  have : ∀ c c' : C × List Nat, (do let x ← f c.1; pure (x, c.2)) = Except.ok c' ↔ c'.2 = c.2 ∧ feed ops c.1 [ev] = .ok c'.1 := by
    intro c c'
    rw [bind_ok_iff, feed_singleton, ← hf]
    constructor
    · rintro ⟨x, h1, h2⟩
      rw [pure_ok_iff] at h2
      subst h2
      exact ⟨rfl, h1⟩
    · rintro ⟨h1, h2⟩
      exact ⟨c'.1, h2, by rw [pure_ok_iff, ← h1]⟩
  simp only [this]

/-- The column events of a calculation. -/
theorem ColRounds.events {ops : Ops G C K} {mr : Nat} {needed : List Nat} {b : Int} {xs : List Int}
    {s s' : List (G × Nat) × List (C × List Nat)} (h : ColRounds ops mr needed b xs s s') :
    ∃ L : List Nat → List (CEvent K), AllFed ops L s.2 s'.2 ∧ ∀ ids, seriesShift (L ids) = 0 ∧ queryShift (L ids) = 0 ∧
      ∀ t, streamCols t (L ids) = xs.map (t + ·) := by
  unfold ColRounds at h
  induction xs generalizing s with
  | nil =>
    have : s' = s := h
    subst this
    exact ⟨fun _ => [], AllFed.refl_nil _ _, fun _ => ⟨rfl, rfl, fun _ => rfl⟩⟩
  | cons x xs ih =>
    obtain ⟨s1, ⟨R, _, hf⟩, h2⟩ := h
    obtain ⟨L, hL, hp⟩ := ih h2
    refine ⟨_, hf.trans hL, ?_⟩
    intro ids
    obtain ⟨p1, p2, p3⟩ := hp ids
    refine ⟨?_, ?_, ?_⟩
    · rw [seriesShift_append, p1]; rfl
    · rw [queryShift_append, p2]; rfl
    · intro t
      rw [streamCols_append, p3]
      simp [colEvs, streamCols, seriesShift]

/-- The number of points a call adds to the series / to the query. -/
def Streaming.Op.seriesPoints : Op K → Nat
  | .series (.d1 _) => 1
  | .series (.d2 _ cols) => cols
  | _ => 0
def Streaming.Op.queryPoints : Op K → Nat
  | .query (.d1 _) => 1
  | .query (.d2 _ cols) => cols
  | _ => 0

/-- The part of a state that calls do not change. -/
structure SameShape (st st' : Streaming G C) : Prop where
  selfJoin : st'.base.selfJoin = st.base.selfJoin
  m : st'.base.m = st.base.m
  nDim : st'.base.nDim = st.base.nDim
  numSeries : st'.base.numSeries = st.base.numSeries
  numQuery : st'.base.numQuery = st.base.numQuery
  buffer : st'.base.buffer = st.base.buffer

theorem SameShape.rfl' (st : Streaming G C) : SameShape st st := ⟨rfl, rfl, rfl, rfl, rfl, rfl⟩
theorem SameShape.trans {a b c : Streaming G C} (h1 : SameShape a b) (h2 : SameShape b c) : SameShape a c :=
  ⟨h2.1.trans h1.1, h2.2.trans h1.2, h2.3.trans h1.3, h2.4.trans h1.4, h2.5.trans h1.5, h2.6.trans h1.6⟩

/-- A calculator after construction, with its generators and consumers added, before any call. -/
structure Streaming.Fresh (st : Streaming G C) (needed : List Nat) : Prop where
  needed : st.base.Needed needed
  m : 1 ≤ st.base.m
  cols : 0 ≤ st.base.numSeries
  rows : 0 ≤ st.base.numQuery
  buffer : -1 ≤ st.base.buffer
  self : st.base.selfJoin = true → st.base.numQuery = st.base.numSeries
  last : st.base.lastCol = -1
  s0 : st.streamedSeries = 0
  q0 : st.base.selfJoin = false → st.streamedQuery = 0

/-- What holds after every call; `evs` is what a consumer has received so far. -/
structure StreamInv (st : Streaming G C) (evs : List (CEvent K)) : Prop where
  sshift : seriesShift evs = max 0 (st.streamedSeries - (st.base.numSeries + st.base.m - 1))
  qshift : queryShift evs = if st.base.selfJoin then seriesShift evs else max 0 (st.streamedQuery - (st.base.numQuery + st.base.m - 1))
  inc : (streamCols 0 evs).Pairwise (· < ·)
  bound : ∀ p ∈ streamCols 0 evs, 0 ≤ p ∧ p ≤ seriesShift evs + st.base.lastCol
  cover : ∀ p, seriesShift evs ≤ p → p ≤ seriesShift evs + st.base.lastCol → p ∈ streamCols 0 evs

structure StreamOk (st : Streaming G C) (needed : List Nat) : Prop where
  needed : st.base.Needed needed
  m : 1 ≤ st.base.m
  cols : 0 ≤ st.base.numSeries
  rows : 0 ≤ st.base.numQuery
  buffer : -1 ≤ st.base.buffer
  last0 : -1 ≤ st.base.lastCol
  last1 : st.base.lastCol + 1 ≤ st.maxColumn
  s0 : 0 ≤ st.streamedSeries
  q0 : st.base.selfJoin = false → 0 ≤ st.streamedQuery

theorem needed_of_ids' {a b : Calc G C} {needed : List Nat} (h : b.cons.map Prod.snd = a.cons.map Prod.snd) (hn : a.Needed needed) :
    b.Needed needed := by
  constructor
  · exact hn.nodup
  · intro id
    rw [hn.mem]
    have e1 : ∀ l : List (C × List Nat), (∃ c ∈ l, id ∈ c.2) ↔ ∃ x ∈ l.map Prod.snd, id ∈ x := by
      intro l; simp only [List.mem_map, exists_exists_and_eq_and]
    rw [e1, e1, h]

theorem toRows_points (nDim : Nat) (v : NDArray K) (rows : List (List (Fl K))) (n : Nat) (h : toRows nDim v = .ok (rows, n)) :
    (Op.series v).seriesPoints = n ∧ (Op.query v).queryPoints = n := by
  cases v with
  | d1 v =>
    simp only [toRows] at h
    split at h
    · cases h; exact ⟨rfl, rfl⟩
    · cases h
  | d2 r c =>
    simp only [toRows] at h
    split at h
    · cases h
    · cases h; exact ⟨rfl, rfl⟩
  | higher => cases h

/-- One call: what the consumers receive, and what it keeps. -/
theorem step_inv (ops : Ops G C K) (needed : List Nat) (o : Op K) (st st' : Streaming G C) (hok : StreamOk st needed)
    (h : st.step ops needed o = .ok st') :
    StreamOk st' needed ∧ SameShape st st' ∧ st'.streamedSeries = st.streamedSeries + o.seriesPoints ∧
      (st.base.selfJoin = false → st'.streamedQuery = st.streamedQuery + o.queryPoints) ∧
      (st.base.selfJoin = true → o.queryPoints = 0) ∧
      (o = .columns (fun _ => false) (.float (.fin 1)) → st'.base.lastCol + 1 = st.maxColumn) ∧
      ∃ L : List Nat → List (CEvent K), AllFed ops L st.base.cons st'.base.cons ∧
        ∀ ids evs, StreamInv st evs → StreamInv st' (evs ++ L ids) := by
  have k1 := hok.m; have k2 := hok.cols; have k3 := hok.rows; have k4 := hok.last0; have k5 := hok.last1; have k6 := hok.s0; have k7 := hok.q0
  cases o with
  | series v =>
    unfold step at h
    simp only at h
    unfold appendSeries at h
    obtain ⟨⟨rows, n⟩, h1, h⟩ := bind_ok_iff.mp h
    obtain ⟨gens, h2, h⟩ := bind_ok_iff.mp h
    obtain ⟨hp, -⟩ := toRows_points _ _ _ _ h1
    simp only at h
    have hshift : shiftOf (st.base.numSeries + st.base.m - 1) st.streamedSeries n =
        max 0 (st.streamedSeries + n - (st.base.numSeries + st.base.m - 1)) - max 0 (st.streamedSeries - (st.base.numSeries + st.base.m - 1)) := by
      unfold shiftOf; split <;> omega
    generalize hs : shiftOf (st.base.numSeries + st.base.m - 1) st.streamedSeries n = shift at h hshift
    split at h
    · rename_i hne
      obtain ⟨cons, h3, h⟩ := bind_ok_iff.mp h
      rw [pure_ok_iff] at h
      unfold shiftBoth at h3
      obtain ⟨cons1, h3, h4⟩ := bind_ok_iff.mp h3
      rw [shiftCons_iff ops (fun c => ops.shiftSeries c shift) (.shiftSeries shift) (fun _ => rfl)] at h3
      have hL : AllFed ops (fun _ => CEvent.shiftSeries shift :: if st.base.selfJoin then [.shiftQuery shift] else []) st.base.cons cons := by
        split at h4
        · rename_i hj
          rw [shiftCons_iff ops (fun c => ops.shiftQuery c shift) (.shiftQuery shift) (fun _ => rfl)] at h4
          refine (h3.trans h4).congr ?_
          intro c _
          simp [hj]
        · rename_i hj
          rw [pure_ok_iff] at h4
          subst h4
          refine h3.congr ?_
          intro c _
          simp [hj]
      subst h
      refine ⟨⟨needed_of_ids' hL.ids hok.needed, k1, k2, k3, hok.buffer, ?_, ?_, ?_, k7⟩, ⟨rfl, rfl, rfl, rfl, rfl, rfl⟩, ?_, ?_, fun _ => rfl, fun h => (by cases h), _, hL, ?_⟩
      · simp only; omega
      · unfold maxColumn at k5 ⊢
        simp only
        omega
      · simp only; omega
      · simp only [hp]
      · intro _; simp [Op.queryPoints]
      · intro _ evs hi
        have i1 := hi.sshift
        have hss : seriesShift (evs ++ (CEvent.shiftSeries shift :: if st.base.selfJoin then [.shiftQuery shift] else [])) = seriesShift evs + shift := by
          rw [seriesShift_append]
          split <;> simp [seriesShift]
        have hsc : streamCols 0 (evs ++ (CEvent.shiftSeries shift :: if st.base.selfJoin then [.shiftQuery shift] else [])) = streamCols 0 evs := by
          rw [streamCols_append]
          split <;> simp [streamCols]
        constructor
        · rw [hss]; simp only; omega
        · rw [hss, queryShift_append, hi.qshift]
          split
          · simp [queryShift]
          · simp [queryShift]
        · rw [hsc]; exact hi.inc
        · rw [hsc, hss]
          intro p hp
          have := hi.bound p hp
          simp only
          omega
        · rw [hsc, hss]
          intro p h1 h2
          simp only at h2
          exact hi.cover p (by omega) (by omega)
    · rename_i hne
      rw [not_not] at hne
      rw [pure_ok_iff] at h
      subst h
      refine ⟨⟨needed_of_ids' (a := st.base) rfl hok.needed, k1, k2, k3, hok.buffer, k4, ?_, ?_, k7⟩, ⟨rfl, rfl, rfl, rfl, rfl, rfl⟩, ?_, ?_, fun _ => rfl, fun h => (by cases h), _, AllFed.refl_nil _ _, ?_⟩
      · unfold maxColumn at k5 ⊢
        simp only
        omega
      · simp only; omega
      · simp only [hp]
      · intro _; simp [Op.queryPoints]
      · intro _ evs hi
        simp only [List.append_nil]
        have i1 := hi.sshift
        exact ⟨by simp only; omega, hi.qshift, hi.inc, hi.bound, hi.cover⟩
  | query v =>
    unfold step at h
    simp only at h
    unfold appendQuery at h
    split at h
    · cases h
    rename_i hj
    obtain ⟨⟨rows, n⟩, h1, h⟩ := bind_ok_iff.mp h
    obtain ⟨gens, h2, h⟩ := bind_ok_iff.mp h
    obtain ⟨-, hp⟩ := toRows_points _ _ _ _ h1
    simp only at h
    have hj' : st.base.selfJoin = false := by simpa using hj
    have k7' := k7 hj'
    have hshift : shiftOf (st.base.numQuery + st.base.m - 1) st.streamedQuery n =
        max 0 (st.streamedQuery + n - (st.base.numQuery + st.base.m - 1)) - max 0 (st.streamedQuery - (st.base.numQuery + st.base.m - 1)) := by
      unfold shiftOf; split <;> omega
    generalize hs : shiftOf (st.base.numQuery + st.base.m - 1) st.streamedQuery n = shift at h hshift
    split at h
    · rename_i hne
      obtain ⟨cons, h3, h⟩ := bind_ok_iff.mp h
      rw [pure_ok_iff] at h
      rw [shiftCons_iff ops (fun c => ops.shiftQuery c shift) (.shiftQuery shift) (fun _ => rfl)] at h3
      subst h
      refine ⟨⟨needed_of_ids' h3.ids hok.needed, k1, k2, k3, hok.buffer, k4, k5, k6, ?_⟩, ⟨rfl, rfl, rfl, rfl, rfl, rfl⟩, ?_, ?_, ?_, fun h => (by cases h), _, h3, ?_⟩
      · intro _; simp only; omega
      · simp [Op.seriesPoints]
      · intro _; simp only [hp]
      · intro h; rw [hj'] at h; cases h
      · intro _ evs hi
        have i1 := hi.qshift
        have hss : seriesShift (evs ++ [CEvent.shiftQuery shift]) = seriesShift evs := by
          rw [seriesShift_append]; simp [seriesShift]
        have hsc : streamCols 0 (evs ++ [CEvent.shiftQuery shift]) = streamCols 0 evs := by
          rw [streamCols_append]; simp [streamCols]
        rw [hj'] at i1
        simp only [Bool.false_eq_true, if_false] at i1
        constructor
        · rw [hss]; exact hi.sshift
        · rw [queryShift_append, i1, hj']
          simp only [queryShift, Bool.false_eq_true, if_false]
          omega
        · rw [hsc]; exact hi.inc
        · rw [hsc, hss]; exact hi.bound
        · rw [hsc, hss]; exact hi.cover
    · rename_i hne
      rw [not_not] at hne
      rw [pure_ok_iff] at h
      subst h
      refine ⟨⟨needed_of_ids' (a := st.base) rfl hok.needed, k1, k2, k3, hok.buffer, k4, k5, k6, ?_⟩, ⟨rfl, rfl, rfl, rfl, rfl, rfl⟩, ?_, ?_, ?_, fun h => (by cases h), _, AllFed.refl_nil _ _, ?_⟩
      · intro _; simp only; omega
      · simp [Op.seriesPoints]
      · intro _; simp only [hp]
      · intro h; rw [hj'] at h; cases h
      · intro _ evs hi
        simp only [List.append_nil]
        have i1 := hi.qshift
        rw [hj'] at i1
        simp only [Bool.false_eq_true, if_false] at i1
        refine ⟨hi.sshift, ?_, hi.inc, hi.bound, hi.cover⟩
        rw [i1, hj']
        simp only [Bool.false_eq_true, if_false]
        omega
  | columns ints upto =>
    unfold step at h
    simp only at h
    unfold Streaming.calculateColumns at h
    obtain ⟨base, h1, h⟩ := bind_ok_iff.mp h
    rw [pure_ok_iff] at h
    have hmc0 : 0 ≤ st.maxColumn := by unfold maxColumn; omega
    have hmr0 : 0 ≤ st.maxRow := by unfold maxRow; split <;> (unfold maxColumn at *; omega)
    have ha : ratioToInt ((none : Option PyNum).getD (.int (st.base.lastCol + 1))) st.base.numSeries st.maxColumn = .ok (st.base.lastCol + 1) := by
      show Except.ok (min (max 0 (st.base.lastCol + 1)) st.maxColumn) = _
      congr 1; omega
    cases hu : ratioToInt upto st.base.numSeries st.maxColumn with
    | error e =>
      exfalso
      unfold Calc.calculateColumns at h1
      simp only [Option.getD_none] at ha h1
      simp only [ha, hu, bind, Except.bind] at h1
      cases h1
    | ok b =>
      have hb := ratioToInt_nonneg _ _ _ _ hmc0 hu
      have hcd := (calculateColumns_iff ops st.maxColumn st.maxRow hmr0 hmc0 needed ints none upto st.base base hok.needed.nodup
        (fun c hcm id hid => (hok.needed.mem id).mpr ⟨c, hcm, hid⟩) hok.buffer _ b ha hu (by omega)).mp h1
      generalize hk : doneBefore ints (b - (st.base.lastCol + 1)).toNat (st.base.lastCol + 1) = k at hcd
      have hkle := doneBefore_le ints (b - (st.base.lastCol + 1)).toNat (st.base.lastCol + 1)
      rw [hk] at hkle
      have hlast := hcd.lastCol
      have hval := hcd.valid (maxCol := st.maxColumn) (by omega) (by omega) ⟨k4, k5, hok.buffer, hok.needed⟩
      obtain ⟨hr, he⟩ := hcd
      obtain ⟨L, hL, hp⟩ := ColRounds.events hr
      simp only at hL
      have f1 : base.selfJoin = st.base.selfJoin := by rw [he]
      have f2 : base.m = st.base.m := by rw [he]
      have f3 : base.nDim = st.base.nDim := by rw [he]
      have f4 : base.numSeries = st.base.numSeries := by rw [he]
      have f5 : base.numQuery = st.base.numQuery := by rw [he]
      have f6 : base.buffer = st.base.buffer := by rw [he]
      subst h
      have hmc : maxColumn { st with base := base } = st.maxColumn := by unfold maxColumn; simp only [f2, f4]
      refine ⟨⟨hval.needed, by simp only [f2]; exact k1, by simp only [f4]; exact k2, by simp only [f5]; exact k3, hval.buffer, hval.last0,
        by rw [hmc]; exact hval.last1, k6, by simp only [f1]; exact k7⟩, ⟨f1, f2, f3, f4, f5, f6⟩, by simp [Op.seriesPoints],
        fun _ => by simp [Op.queryPoints], fun _ => rfl, ?_, L, hL, ?_⟩
      · intro ho
        cases ho
        rw [(C19_one _ _ hmc0 (by unfold maxColumn; omega)).1] at hu
        cases hu
        rw [doneBefore_false] at hk
        rw [hlast]
        split <;> omega
      intro ids evs hi
      obtain ⟨p1, p2, p3⟩ := hp ids
      have hlast' : base.lastCol = st.base.lastCol + k := by
        rw [hlast]; split <;> omega
      constructor
      · rw [seriesShift_append, p1, add_zero]; simp only [f2, f4]; exact hi.sshift
      · rw [seriesShift_append, queryShift_append, p1, p2, add_zero, add_zero]; simp only [f1, f2, f5]; exact hi.qshift
      · rw [streamCols_append, p3, List.pairwise_append]
        refine ⟨hi.inc, ?_, ?_⟩
        · rw [List.pairwise_map]
          have : (pyRange (st.base.lastCol + 1) (st.base.lastCol + 1 + k)).Pairwise (· < ·) := by
            unfold pyRange
            rw [List.pairwise_map]
            exact List.pairwise_lt_range.imp (by intro a b h; omega)
          exact this.imp (by intro a b h; omega)
        · intro x hx y hy
          obtain ⟨c, hc, rfl⟩ := List.mem_map.mp hy
          rw [mem_pyRange] at hc
          have := hi.bound x hx
          omega
      · rw [streamCols_append, p3, seriesShift_append, p1]
        intro p hp
        simp only [hlast']
        rcases List.mem_append.mp hp with hp | hp
        · have := hi.bound p hp; omega
        · obtain ⟨c, hc, rfl⟩ := List.mem_map.mp hp
          rw [mem_pyRange] at hc
          have := hi.sshift
          omega
      · rw [streamCols_append, p3, seriesShift_append, p1]
        intro p h1 h2
        simp only [hlast'] at h2
        rw [List.mem_append]
        by_cases hle : p ≤ seriesShift evs + st.base.lastCol
        · exact Or.inl (hi.cover p (by omega) hle)
        · refine Or.inr (List.mem_map.mpr ⟨p - seriesShift evs, ?_, by omega⟩)
          rw [mem_pyRange]; omega

/-- Any sequence of calls. -/
theorem run_inv (ops : Ops G C K) (needed : List Nat) (os : List (Op K)) (st st' : Streaming G C) (hok : StreamOk st needed)
    (h : st.run ops needed os = .ok st') :
    StreamOk st' needed ∧ SameShape st st' ∧ st'.streamedSeries = st.streamedSeries + (os.map Op.seriesPoints).sum ∧
      (st.base.selfJoin = false → st'.streamedQuery = st.streamedQuery + (os.map Op.queryPoints).sum) ∧
      ∃ L : List Nat → List (CEvent K), AllFed ops L st.base.cons st'.base.cons ∧
        ∀ ids evs, StreamInv st evs → StreamInv st' (evs ++ L ids) ∧
          ∀ os1 os2, os = os1 ++ .columns (fun _ => false) (.float (.fin 1)) :: os2 → ∀ p : Int,
            st.streamedSeries + (os1.map Op.seriesPoints).sum - (st.base.numSeries + st.base.m - 1) ≤ p → 0 ≤ p →
            p ≤ st.streamedSeries + (os1.map Op.seriesPoints).sum - st.base.m → p ∈ streamCols 0 (evs ++ L ids) := by
  induction os generalizing st with
  | nil =>
    simp only [run, Except.ok.injEq] at h
    subst h
    exact ⟨hok, SameShape.rfl' _, by simp, by simp, fun _ => [], AllFed.refl_nil _ _, by simp⟩
  | cons o os ih =>
    obtain ⟨st1, h1, h2⟩ := bind_ok_iff.mp h
    obtain ⟨a1, a2, a3, a4, -, a7, L1, a5, a6⟩ := step_inv ops needed o st st1 hok h1
    obtain ⟨b1, b2, b3, b4, L2, b5, b6⟩ := ih st1 a1 h2
    refine ⟨b1, a2.trans b2, ?_, ?_, _, a5.trans b5, ?_⟩
    · rw [b3, a3]; simp; ring
    · intro hj
      rw [b4 (by rw [a2.selfJoin]; exact hj), a4 hj]; simp; ring
    · intro ids evs hi
      have hi1 := a6 ids evs hi
      obtain ⟨c1, c2⟩ := b6 ids _ hi1
      rw [← List.append_assoc]
      refine ⟨c1, ?_⟩
      intro os1 os2 heq p p1 p2 p3
      cases os1 with
      | nil =>
        simp only [List.nil_append, List.cons.injEq] at heq
        have hl := a7 heq.1
        rw [streamCols_append, List.mem_append]
        left
        have hs := hi1.sshift
        rw [a2.numSeries, a2.m, a3] at hs
        have ho : o.seriesPoints = 0 := by rw [heq.1]; rfl
        simp only [List.map_nil, List.sum_nil] at p1 p3
        unfold maxColumn at hl
        have := hok.m; have := hok.cols
        refine hi1.cover p ?_ ?_
        · omega
        · omega
      | cons o' os1 =>
        simp only [List.cons_append, List.cons.injEq] at heq
        refine c2 os1 os2 heq.2 p ?_ p2 ?_
        · rw [a2.numSeries, a2.m, a3, heq.1]; simp at p1 ⊢; omega
        · rw [a2.m, a3, heq.1]; simp at p3 ⊢; omega

theorem Streaming.Fresh.ok {st : Streaming G C} {needed : List Nat} (h : st.Fresh needed) : StreamOk st needed :=
  ⟨h.needed, h.m, h.cols, h.rows, h.buffer, by rw [h.last], by rw [h.last]; unfold maxColumn; have := h.cols; omega, by rw [h.s0],
    fun hj => by rw [h.q0 hj]⟩

theorem Streaming.Fresh.inv {st : Streaming G C} {needed : List Nat} (h : st.Fresh needed) : StreamInv st ([] : List (CEvent K)) := by
  have := h.m; have := h.cols; have := h.rows
  constructor
  · simp only [seriesShift, h.s0]; omega
  · simp only [seriesShift, queryShift]
    split
    · rfl
    · rename_i hj
      rw [h.q0 (by simpa using hj)]; omega
  · exact List.Pairwise.nil
  · intro p hp; cases hp
  · intro p h1 h2; rw [h.last] at h2; omega

/-- **C25/C26**: the constructor gives a fresh calculator; adding generators and consumers keeps it fresh. -/
theorem C26_fresh (m w : Int) (q : Option Int) (nDim : Nat) (buffer : Option Int) (st : Streaming G C) (hm : 1 ≤ m)
    (hw : 0 ≤ w - m + 1) (hq : ∀ x, q = some x → 0 ≤ x - m + 1)
    (h : Streaming.init m w q nDim buffer = .ok st) :
    st.Fresh [] ∧ st.base.numSeries + st.base.m - 1 = w ∧ st.base.selfJoin = q.isNone := by
  unfold Streaming.init at h
  cases q with
  | none =>
    obtain ⟨base, h1, h⟩ := bind_ok_iff.mp h
    rw [pure_ok_iff] at h
    subst h
    obtain ⟨g1, g2, g3, g4⟩ := (C24_trivial_match_buffer (G := G) (C := C) _ _ _ _ buffer).1 base h1
    have hb : base.m = m ∧ base.numSeries = w - m + 1 ∧ base.selfJoin = true ∧ base.lastCol = -1 ∧ base.cons = [] := by
      simp only [Calc.init, if_true] at h1
      split at h1
      · cases h1; exact ⟨rfl, rfl, rfl, rfl, rfl⟩
      · cases h1
    obtain ⟨c1, c2, c3, c4, c5⟩ := hb
    refine ⟨⟨⟨by simp, by simp [c5]⟩, by rw [c1]; exact hm, by simp only [c2]; omega, by simp only [g4]; omega, g2, fun _ => by simp only [g4, c2], c4, rfl, ?_⟩,
      by simp only [c1, c2]; omega, by simp [c3]⟩
    intro hj; rw [c3] at hj; cases hj
  | some q =>
    obtain ⟨base, h1, h⟩ := bind_ok_iff.mp h
    rw [pure_ok_iff] at h
    subst h
    simp only [Calc.init, Bool.false_eq_true, if_false, Except.ok.injEq] at h1
    subst h1
    have := hq q rfl
    exact ⟨⟨⟨by simp, by simp⟩, hm, hw, this, le_rfl, by simp, rfl, rfl, fun _ => rfl⟩, by simp only; omega, rfl⟩

example := C26_fresh (G := Unit) (C := Unit) 2 5 (some 4) 1 none _ (by omega) (by omega) (by simp) rfl

/-- Concrete case: window of 4 points, m = 2; calls: 3 points, a partial calculation, 1 point, 2 points, a full calculation. -/
def recStream : Streaming Nat (List (Int × List (List (Fl Int)))) := { base := recCalc, streamedSeries := 0, streamedQuery := -1 }

theorem recStream_fresh : recStream.Fresh [1] :=
  ⟨⟨by decide, by intro id; simp [recStream, recCalc]⟩, by decide, by decide, by decide, by decide, by decide, by decide, by decide, by decide⟩

def recStreamOps : Ops Nat (List (Int × List (List (Fl Int)))) Int :=
  { recOps with calcColumn := fun g c => .ok (g + 1, [.fin c]) }

def recScript : List (Op Int) :=
  [.series (.d2 [[.fin 0, .fin 1, .fin 2]] 3), .columns (fun _ => false) (.int 1), .series (.d1 [.fin 3]),
   .series (.d2 [[.fin 4, .fin 5]] 2), .columns (fun _ => false) (.int 3)]

example : (recStream.run recStreamOps [1] recScript).toOption.map (fun s => (s.base.cons.map (fun c => c.1.map Prod.fst), s.base.lastCol)) =
    some ([[0, 2, -2, 0, 1, 2]], 2) := by rfl

/-- **C25**: after any sequence of calls, however the points were split into appends, the shifts announced to each consumer
add up to the number of points pushed out of the window; the number of columns (rows) available is the number of complete
subsequences in the window. -/
theorem C25_shift_accounting (ops : Ops G C K) (needed : List Nat) (os : List (Op K)) (st st' : Streaming G C) (hf : st.Fresh needed)
    (h : st.run ops needed os = .ok st') :
    (∃ L : List Nat → List (CEvent K), AllFed ops L st.base.cons st'.base.cons ∧ ∀ ids,
      seriesShift (L ids) = max 0 ((os.map Op.seriesPoints).sum - (st.base.numSeries + st.base.m - 1)) ∧
      queryShift (L ids) = max 0 ((if st.base.selfJoin then (os.map Op.seriesPoints).sum else (os.map Op.queryPoints).sum) -
        (st.base.numQuery + st.base.m - 1))) ∧
    st'.maxColumn = max 0 (min ((os.map Op.seriesPoints).sum : Int) (st.base.numSeries + st.base.m - 1) - st.base.m + 1) ∧
    st'.maxRow = max 0 (min ((if st.base.selfJoin then (os.map Op.seriesPoints).sum else (os.map Op.queryPoints).sum : Nat) : Int)
      (st.base.numQuery + st.base.m - 1) - st.base.m + 1) := by
  obtain ⟨a1, a2, a3, a4, L, a5, a6⟩ := run_inv ops needed os st st' hf.ok h
  have k1 := hf.m; have k2 := hf.cols; have k3 := hf.rows
  rw [hf.s0, zero_add] at a3
  refine ⟨⟨L, a5, ?_⟩, ?_, ?_⟩
  · intro ids
    have hi := (a6 ids [] hf.inv).1
    rw [List.nil_append] at hi
    have i1 := hi.sshift
    have i2 := hi.qshift
    rw [a2.numSeries, a2.m, a3] at i1
    refine ⟨i1, ?_⟩
    rw [i2, a2.selfJoin]
    cases hj : st.base.selfJoin with
    | true =>
      simp only [if_true]
      rw [i1, hf.self hj]
    | false =>
      simp only [Bool.false_eq_true, if_false]
      rw [a2.numQuery, a2.m, a4 hj, hf.q0 hj, zero_add]
  · unfold maxColumn
    rw [a2.numSeries, a2.m, a3]
    omega
  · unfold maxRow
    rw [a2.selfJoin]
    cases hj : st.base.selfJoin with
    | true =>
      simp only [if_true]
      unfold maxColumn
      rw [a2.numSeries, a2.m, a3, hf.self hj]
      omega
    | false =>
      simp only [Bool.false_eq_true, if_false]
      rw [a2.numQuery, a2.m, a4 hj, hf.q0 hj, zero_add]
      omega

example := C25_shift_accounting recStreamOps [1] recScript recStream _ recStream_fresh rfl

/-- **C26**: in any history of appends and calculations (complete, partial or interrupted), no position of the stream is ever
delivered twice (positions delivered strictly increase), and every position that was in the window at a complete calculation
has been delivered. -/
theorem C26_stream_positions (ops : Ops G C K) (needed : List Nat) (os : List (Op K)) (st st' : Streaming G C) (hf : st.Fresh needed)
    (h : st.run ops needed os = .ok st') :
    ∃ L : List Nat → List (CEvent K), AllFed ops L st.base.cons st'.base.cons ∧ ∀ ids,
      (streamCols 0 (L ids)).Pairwise (· < ·) ∧
      (∀ p ∈ streamCols 0 (L ids), 0 ≤ p ∧ p ≤ (os.map Op.seriesPoints).sum - st.base.m) ∧
      (∀ os1 os2, os = os1 ++ .columns (fun _ => false) (.float (.fin 1)) :: os2 → ∀ p : Int,
        (os1.map Op.seriesPoints).sum - (st.base.numSeries + st.base.m - 1) ≤ p → 0 ≤ p →
        p ≤ (os1.map Op.seriesPoints).sum - st.base.m → p ∈ streamCols 0 (L ids)) := by
  have k1 := hf.m; have k2 := hf.cols; have k3 := hf.rows
  obtain ⟨a1, a2, a3, a4, L, a5, a6⟩ := run_inv ops needed os st st' hf.ok h
  refine ⟨L, a5, ?_⟩
  intro ids
  obtain ⟨hi, hc⟩ := a6 ids [] hf.inv
  rw [List.nil_append] at hi hc
  refine ⟨hi.inc, ?_, ?_⟩
  · intro p hp
    have h1 := hi.bound p hp
    have h2 := hi.sshift
    have h3 := a1.last1
    rw [a2.numSeries, a2.m, a3, hf.s0] at h2
    unfold maxColumn at h3
    rw [a2.numSeries, a2.m, a3, hf.s0] at h3
    omega
  · intro os1 os2 heq p p1 p2 p3
    exact hc os1 os2 heq p (by rw [hf.s0]; omega) p2 (by rw [hf.s0]; omega)

example := C26_stream_positions recStreamOps [1] recScript recStream _ recStream_fresh rfl

end Verif
