import Verif.Lemmas.Mimic

/-!
Calculators whose consumers are in step.
-/

namespace Verif
open Spec
variable {A B G C C' K : Type}

/-- The distances of the generators `ids`. -/
abbrev fetch (rows : List (List (Fl K))) (ids : List Nat) : Except PyErr (List (List (Fl K))) := ids.mapM fun id : Nat => pyGet rows (id : Int)

/-- Consumers of a calculator for a distance matrix of height `h` and width `w`, which are in step as long as they receive calls of the kinds `diags` (diagonals), `cols`
(columns) and `shifts` (shifts): `P ids ids'` relates consumers with the generator ids `ids` and `ids'`, which may be in different order. -/
structure InStep (h w : Int) (diags cols shifts : Prop) (P : List Nat → List Nat → C → C' → Prop) (ops : Ops G C K) (ops' : Ops G C' K) : Prop where
  gen : ops'.gen = ops.gen
  perm : ∀ ids ids' c c', P ids ids' c c' → ids.Perm ids'
  column : cols → ∀ ids ids' c c', P ids ids' c c' → ∀ (x : Int) (rows vals vals' : List (List (Fl K))) (n : Nat), 0 ≤ x → x < w → (∀ r ∈ rows, r.length = n) →
    fetch rows ids = .ok vals → fetch rows ids' = .ok vals' → Alike (P ids ids') (ops.processColumn c x vals) (ops'.processColumn c' x vals')
  diagonal : diags → ∀ ids ids' c c', P ids ids' c c' → ∀ (d : Int) (rows vals vals' : List (List (Fl K))) (n : Nat), -h < d → d < w → (∀ r ∈ rows, r.length = n) →
    fetch rows ids = .ok vals → fetch rows ids' = .ok vals' → Alike (P ids ids') (ops.processDiagonal c d vals) (ops'.processDiagonal c' d vals')
  series : shifts → ∀ ids ids' c c', P ids ids' c c' → ∀ n : Int, 0 < n → Alike (P ids ids') (ops.shiftSeries c n) (ops'.shiftSeries c' n)
  query : shifts → ∀ ids ids' c c', P ids ids' c c' → ∀ n : Int, 0 < n → Alike (P ids ids') (ops.shiftQuery c n) (ops'.shiftQuery c' n)

/-- Lists of consumers, each with its generator ids. -/
abbrev ConsPair (P : List Nat → List Nat → C → C' → Prop) (cons : List (C × List Nat)) (cons' : List (C' × List Nat)) : Prop :=
  List.Forall₂ (fun x y => P x.2 y.2 x.1 y.1) cons cons'

theorem mapM_length {f : A → Except PyErr B} {l : List A} {r : List B} (h : l.mapM f = .ok r) : r.length = l.length := ((mapM_ok_iff f l r).mp h).length_eq.symm

/-- Consumers with the same generator ids in the same order. -/
theorem InStep.of_same {h w : Int} {diags cols shifts : Prop} {P : List Nat → C → C' → Prop} {ops : Ops G C K} {ops' : Ops G C' K} (gen : ops'.gen = ops.gen)
    (column : cols → ∀ ids c c', P ids c c' → ∀ (x : Int) (vals : List (List (Fl K))), 0 ≤ x → x < w → vals.length = ids.length →
      Alike (P ids) (ops.processColumn c x vals) (ops'.processColumn c' x vals))
    (diagonal : diags → ∀ ids c c', P ids c c' → ∀ (d : Int) (vals : List (List (Fl K))), -h < d → d < w → vals.length = ids.length →
      Alike (P ids) (ops.processDiagonal c d vals) (ops'.processDiagonal c' d vals))
    (series : shifts → ∀ ids c c', P ids c c' → ∀ n : Int, 0 < n → Alike (P ids) (ops.shiftSeries c n) (ops'.shiftSeries c' n))
    (query : shifts → ∀ ids c c', P ids c c' → ∀ n : Int, 0 < n → Alike (P ids) (ops.shiftQuery c n) (ops'.shiftQuery c' n)) :
    InStep h w diags cols shifts (fun ids ids' c c' => ids' = ids ∧ P ids c c') ops ops' where
  gen := gen
  perm := fun ids ids' _ _ hp => hp.1 ▸ .refl _
  column := fun hc ids ids' c c' hp x rows vals vals' n h0 h1 _ e1 e2 => by
    obtain ⟨rfl, hp⟩ := hp
    obtain rfl := Except.ok.inj (e1.symm.trans e2)
    exact (column hc _ c c' hp x vals h0 h1 (mapM_length e1)).mono fun _ _ hab => ⟨rfl, hab⟩
  diagonal := fun hc ids ids' c c' hp x rows vals vals' n h0 h1 _ e1 e2 => by
    obtain ⟨rfl, hp⟩ := hp
    obtain rfl := Except.ok.inj (e1.symm.trans e2)
    exact (diagonal hc _ c c' hp x vals h0 h1 (mapM_length e1)).mono fun _ _ hab => ⟨rfl, hab⟩
  series := fun hc ids ids' c c' hp n hn => (series hc ids c c' hp.2 n hn).mono fun _ _ hab => ⟨hp.1, hab⟩
  query := fun hc ids ids' c c' hp n hn => (query hc ids c c' hp.2 n hn).mono fun _ _ hab => ⟨hp.1, hab⟩

theorem npRow_length {n : Nat} {v r : List (Fl K)} (h : npRow n v = .ok r) : r.length = n := by
  unfold npRow at h
  split at h
  · cases h; assumption
  · split at h
    · cases h; exact List.length_replicate
    · cases h

theorem genStep_rows {ask : G → Except PyErr (G × List (Fl K))} {n : Nat} : ∀ {ids : List Nat} {gens gens' : List (G × Nat)} {rows rows' : List (List (Fl K))},
    (∀ r ∈ rows, r.length = n) → Calc.genStep ask n ids gens rows = .ok (gens', rows') → ∀ r ∈ rows', r.length = n
  | [], _, _, _, _, hr, h => by cases h; exact hr
  | id :: ids, gens, gens', rows, rows', hr, h => by
    unfold Calc.genStep at h
    obtain ⟨g, -, h⟩ := bind_ok_iff.mp h
    obtain ⟨⟨g', v⟩, -, h⟩ := bind_ok_iff.mp h
    obtain ⟨row, h1, h⟩ := bind_ok_iff.mp h
    obtain ⟨rows1, h2, h⟩ := bind_ok_iff.mp h
    refine genStep_rows (fun r hr' => ?_) h
    obtain ⟨-, rfl⟩ := (pySet_nat_ok _ _ _ _).mp h2
    rcases List.mem_or_eq_of_mem_set hr' with h3 | rfl
    · exact hr r h3
    · exact npRow_length h1

theorem mask_rows {n : Nat} {rows : List (List (Fl K))} (h : ∀ r ∈ rows, r.length = n) (buffer column : Int) : ∀ r ∈ Calc.mask buffer column rows, r.length = n := by
  unfold Calc.mask
  split
  · intro r hr
    obtain ⟨r', hr', rfl⟩ := List.mem_map.mp hr
    rw [pyFill_length]
    exact h r' hr'
  · exact h

theorem fetch_err {rows : List (List (Fl K))} : ∀ {ids : List Nat} {e : PyErr}, fetch rows ids = .error e → e = .indexError ∧ ∃ id ∈ ids, pyGet rows (id : Int) = .error .indexError
  | [], e, h => by cases h
  | id :: ids, e, h => by
    unfold fetch at h
    rw [List.mapM_cons] at h
    cases e1 : pyGet rows (id : Int) with
    | error x =>
      rw [e1] at h
      have hx : x = .indexError := by
        unfold pyGet at e1
        dsimp only at e1
        generalize (if (id : Int) < 0 then (rows.length : Int) + id else (id : Int)) = j at e1
        by_cases hj : j < 0
        · rw [if_pos hj] at e1; exact (Except.error.inj e1).symm
        · rw [if_neg hj] at e1
          cases e3 : rows[j.toNat]? with
          | none => rw [e3] at e1; exact (Except.error.inj e1).symm
          | some v => rw [e3] at e1; cases e1
      subst hx
      cases h
      exact ⟨rfl, id, List.mem_cons_self, e1⟩
    | ok v =>
      rw [e1] at h
      cases e2 : fetch rows ids with
      | error x =>
        have h' : (Except.error x : Except PyErr (List (List (Fl K)))) = Except.error e := by
          have := h
          unfold fetch at e2
          rw [e2] at this
          exact this
        cases h'
        obtain ⟨h1, i, h2, h3⟩ := fetch_err e2
        exact ⟨h1, i, List.mem_cons_of_mem _ h2, h3⟩
      | ok vs =>
        unfold fetch at e2
        rw [e2] at h
        cases h

theorem fetch_perm {rows : List (List (Fl K))} {ids ids' : List Nat} (hp : ids.Perm ids') : Alike (fun vals vals' => fetch rows ids = .ok vals ∧ fetch rows ids' = .ok vals')
    (fetch rows ids) (fetch rows ids') := by
  have key : ∀ {l l' : List Nat}, l.Perm l' → ∀ e, fetch rows l = .error e → fetch rows l' = .error .indexError := by
    intro l l' hl e he
    obtain ⟨-, i, h1, h2⟩ := fetch_err he
    cases e1 : fetch rows l' with
    | error x => rw [(fetch_err e1).1]
    | ok vs =>
      obtain ⟨k, hk, rfl⟩ := List.getElem_of_mem (hl.mem_iff.mp h1)
      have h3 := (List.forall₂_iff_get.mp ((mapM_ok_iff _ _ _).mp e1)).2 k hk (by rw [mapM_length e1]; exact hk)
      rw [List.get_eq_getElem, h2] at h3
      cases h3
  cases e1 : fetch rows ids with
  | error e =>
    rw [key hp e e1, (fetch_err e1).1]
    exact .err _
  | ok vals =>
    cases e2 : fetch rows ids' with
    | error e =>
      rw [key hp.symm e e2] at e1
      cases e1
    | ok vals' => exact .ok ⟨rfl, rfl⟩

/-- Calculators that differ in the consumers only. -/
structure StepPair (h w : Int) (P : List Nat → List Nat → C → C' → Prop) (st : Calc G C) (st' : Calc G C') : Prop where
  selfJoin : st'.selfJoin = st.selfJoin
  m : st'.m = st.m
  nDim : st'.nDim = st.nDim
  numSeries : st'.numSeries = st.numSeries
  numQuery : st'.numQuery = st.numQuery
  buffer : st'.buffer = st.buffer
  gens : st'.gens = st.gens
  cons : ConsPair P st.cons st'.cons
  lastCol : st'.lastCol = st.lastCol
  width : st.numSeries = w
  height : st.numQuery = h
  join : st.selfJoin = true → h = w

section
variable {h w : Int} {diags cols shifts : Prop} {P : List Nat → List Nat → C → C' → Prop} {ops : Ops G C K} {ops' : Ops G C' K} (hs : InStep h w diags cols shifts P ops ops')
include hs

theorem InStep.calcColumn : ops'.calcColumn = ops.calcColumn := congrArg GenOps.calcColumn hs.gen
theorem InStep.calcDiagonal : ops'.calcDiagonal = ops.calcDiagonal := congrArg GenOps.calcDiagonal hs.gen
theorem InStep.appendSeries : ops'.appendSeries = ops.appendSeries := congrArg GenOps.appendSeries hs.gen
theorem InStep.appendQuery : ops'.appendQuery = ops.appendQuery := congrArg GenOps.appendQuery hs.gen

theorem columnStep_inStep (hcols : cols) (needed : List Nat) (maxRow : Nat) (column : Int) (h0 : 0 ≤ column) (h1 : column < w) {s : Calc G C × List (List (Fl K))}
    {s' : Calc G C' × List (List (Fl K))} (hp : StepPair h w P s.1 s'.1 ∧ s.2 = s'.2 ∧ ∀ r ∈ s.2, r.length = maxRow) :
    Alike (fun x y => StepPair h w P x.1 y.1 ∧ x.2 = y.2 ∧ ∀ r ∈ x.2, r.length = maxRow) (Calc.columnStep ops needed maxRow column s) (Calc.columnStep ops' needed maxRow column s') := by
  obtain ⟨st, rows⟩ := s
  obtain ⟨st', rows'⟩ := s'
  obtain ⟨hp, rfl, hrows⟩ := hp
  dsimp only at hp hrows
  unfold Calc.columnStep
  rw [hs.calcColumn]
  dsimp only
  rw [hp.gens, hp.buffer, hp.lastCol]
  cases eg : Calc.genStep (fun g => ops.calcColumn g column) maxRow needed st.gens rows with
  | error x => exact .err x
  | ok r =>
    obtain ⟨gens, rows⟩ := r
    have hrows := mask_rows (genStep_rows hrows eg) st.buffer column
    show Alike _ (Except.bind (Except.ok _) _) (Except.bind (Except.ok _) _)
    refine Alike.bind (R := ConsPair P) (Alike.mapM (R := fun x y => P x.2 y.2 x.1 y.1) (fun x y hxy => ?_) hp.cons) fun cons cons' hc =>
      .ok ⟨⟨hp.selfJoin, hp.m, hp.nDim, hp.numSeries, hp.numQuery, rfl, rfl, hc, rfl, hp.width, hp.height, hp.join⟩, rfl, hrows⟩
    exact (fetch_perm (hs.perm _ _ _ _ hxy)).bind fun vals vals' hv =>
      (hs.column hcols _ _ _ _ hxy column _ vals vals' _ h0 h1 hrows hv.1 hv.2).bind fun c c' hc => .ok hc

theorem columnLoop_inStep (hcols : cols) (needed : List Nat) (maxRow : Nat) (ints : Int → Bool) : ∀ (n : Nat) (column : Int) (s : Calc G C × List (List (Fl K)))
    (s' : Calc G C' × List (List (Fl K))), 0 ≤ column → column + n ≤ w → (StepPair h w P s.1 s'.1 ∧ s.2 = s'.2 ∧ ∀ r ∈ s.2, r.length = maxRow) →
    Alike (fun x y => StepPair h w P x.1 y.1 ∧ x.2 = y.2 ∧ ∀ r ∈ x.2, r.length = maxRow) (Calc.columnLoop ops needed maxRow ints n column s) (Calc.columnLoop ops' needed maxRow ints n column s')
  | 0, _, _, _, _, _, hp => .ok hp
  | n + 1, column, s, s', h0, h1, hp => by
    unfold Calc.columnLoop
    split
    · exact .ok hp
    · exact (columnStep_inStep hs hcols needed maxRow column h0 (by push_cast at h1; omega) hp).bind fun r r' hr =>
        columnLoop_inStep hcols needed maxRow ints n _ r r' (by omega) (by push_cast at h1; omega) hr

theorem calculateColumns_inStep (hcols : cols) (maxCol maxRow : Int) (hm0 : 0 ≤ maxCol) (hmw : maxCol ≤ w) (needed : List Nat) (ints : Int → Bool) (start : Option PyNum) (upto : PyNum)
    {st : Calc G C} {st' : Calc G C'} (hp : StepPair h w P st st') :
    Alike (StepPair h w P) (st.calculateColumns ops maxCol maxRow needed ints start upto) (st'.calculateColumns ops' maxCol maxRow needed ints start upto) := by
  unfold Calc.calculateColumns
  rw [hp.numSeries, hp.lastCol, hp.gens]
  cases e1 : ratioToInt (start.getD (.int (st.lastCol + 1))) st.numSeries maxCol with
  | error e => exact .err e
  | ok a =>
    cases e2 : ratioToInt upto st.numSeries maxCol with
    | error e => exact .err e
    | ok b =>
      have h1 := ratioToInt_range e1
      have h2 := ratioToInt_range e2
      show Alike _ ((npFullNan K st.gens.length maxRow) >>= _) ((npFullNan K st.gens.length maxRow) >>= _)
      cases e3 : npFullNan K st.gens.length maxRow with
      | error e => exact .err e
      | ok rows =>
      have hrows : ∀ r ∈ rows, r.length = maxRow.toNat := by
        unfold npFullNan at e3
        split at e3
        · cases e3
        · cases e3
          intro r hr
          rw [List.eq_of_mem_replicate hr, List.length_replicate]
      show Alike _ (Except.bind (Except.ok _) _) (Except.bind (Except.ok _) _)
      rcases Nat.eq_zero_or_pos (b - a).toNat with hz | hz
      · rw [hz]
        exact .ok hp
      · exact (columnLoop_inStep hs hcols needed _ ints _ a (st, rows) (st', rows) (by omega) (by omega) ⟨hp, rfl, hrows⟩).bind fun r r' hr => .ok hr.1

omit hs in
theorem addConsumer_inStep (ids ids' : List Nat) (c : C) (c' : C') {st : Calc G C} {st' : Calc G C'} (hp : StepPair h w P st st')
    (hi : Alike (P ids ids') (ops.initialise c ids.length h w) (ops'.initialise c' ids'.length h w)) : Alike (StepPair h w P) (st.addConsumer ops ids c) (st'.addConsumer ops' ids' c') := by
  unfold Calc.addConsumer
  refine Alike.bind (R := P ids ids') (by rw [hp.numSeries, hp.numQuery, hp.width, hp.height]; exact hi) fun x y hxy => .ok ⟨hp.selfJoin, hp.m, hp.nDim, hp.numSeries, hp.numQuery, hp.buffer, hp.gens,
    List.rel_append hp.cons (.cons hxy .nil), hp.lastCol, hp.width, hp.height, hp.join⟩

theorem deliverDiagonal_inStep (hd : diags) (selfJoin : Bool) (hj : selfJoin = true → h = w) (d : Int) (h0 : -h < d) (h1 : d < w) (ids ids' : List Nat) (c : C) (c' : C') (hp : P ids ids' c c')
    (rows vals vals' : List (List (Fl K))) (n : Nat) (hr : ∀ r ∈ rows, r.length = n) (hv : fetch rows ids = .ok vals) (hv' : fetch rows ids' = .ok vals') :
    Alike (P ids ids') (Anytime.deliverDiagonal ops selfJoin d c vals) (Anytime.deliverDiagonal ops' selfJoin d c' vals') := by
  unfold Anytime.deliverDiagonal
  refine (hs.diagonal hd ids ids' c c' hp d rows vals vals' n h0 h1 hr hv hv').bind fun x y hxy => ?_
  cases selfJoin with
  | false => exact .ok hxy
  | true =>
    have := hj rfl
    exact hs.diagonal hd ids ids' x y hxy (-d) rows vals vals' n (by omega) (by omega) hr hv hv'

/-! ### `AnytimeCalculator` -/

/-- Calculators that differ in the consumers only. -/
structure AnytimeStepPair (h w : Int) (P : List Nat → List Nat → C → C' → Prop) (st : Anytime G C K) (st' : Anytime G C' K) : Prop where
  base : StepPair h w P st.base st'.base
  series : st'.series = st.series
  query : st'.query = st.query
  order : st'.order = st.order
  total : st'.total = st.total
  next : st'.next = st.next
  calculated : st'.calculated = st.calculated
  inside : ∀ d ∈ st.order, -h < d ∧ d < w

theorem diagonalStep_inStep (hd : diags) (needed : List Nat) (d : Int) (h0 : -h < d) (h1 : d < w) {st : Anytime G C K} {st' : Anytime G C' K} (hp : AnytimeStepPair h w P st st') :
    Alike (AnytimeStepPair h w P) (Anytime.diagonalStep ops needed d st) (Anytime.diagonalStep ops' needed d st') := by
  unfold Anytime.diagonalStep
  rw [hs.calcDiagonal]
  dsimp only
  rw [hp.base.gens, hp.base.numQuery, hp.base.numSeries, hp.base.selfJoin, hp.calculated, hp.next]
  cases eg : Calc.genStep (fun g => ops.calcDiagonal g d) (diagLength st.base.numQuery st.base.numSeries d).toNat needed st.base.gens
    (List.replicate st.base.gens.length (List.replicate (diagLength st.base.numQuery st.base.numSeries d).toNat Fl.nan)) with
  | error x => exact .err x
  | ok r =>
  obtain ⟨gens, rows⟩ := r
  have hrows := genStep_rows (fun r hr => by rw [List.eq_of_mem_replicate hr, List.length_replicate]) eg
  show Alike _ (Except.bind (Except.ok _) _) (Except.bind (Except.ok _) _)
  refine Alike.bind (R := ConsPair P) (Alike.mapM (R := fun x y => P x.2 y.2 x.1 y.1) (fun x y hxy => ?_) hp.base.cons) fun cons cons' hc =>
    .ok ⟨⟨rfl, hp.base.m, hp.base.nDim, rfl, rfl, hp.base.buffer, rfl, hc, hp.base.lastCol, hp.base.width, hp.base.height, hp.base.join⟩, hp.series, hp.query, hp.order,
      hp.total, rfl, rfl, hp.inside⟩
  exact (fetch_perm (hs.perm _ _ _ _ hxy)).bind fun vals vals' hv =>
    (deliverDiagonal_inStep hs hd _ hp.base.join d h0 h1 _ _ _ _ hxy rows vals vals' _ hrows hv.1 hv.2).bind fun c c' hc => .ok hc

theorem diagonalLoop_inStep (hd : diags) (needed : List Nat) (ints : Nat → Bool) (n : Int) : ∀ (l : List Int) (st : Anytime G C K) (st' : Anytime G C' K),
    (∀ d ∈ l, -h < d ∧ d < w) → AnytimeStepPair h w P st st' →
    Alike (AnytimeStepPair h w P) (Anytime.diagonalLoop ops needed ints n l st) (Anytime.diagonalLoop ops' needed ints n l st')
  | [], st, st', _, hp => by
    unfold Anytime.diagonalLoop
    rw [hp.calculated, hp.next]
    split
    · exact .err _
    · exact .ok hp
  | d :: l, st, st', hl, hp => by
    unfold Anytime.diagonalLoop
    rw [hp.calculated, hp.next]
    split
    · obtain ⟨h0, h1⟩ := hl d List.mem_cons_self
      exact (diagonalStep_inStep hs hd needed d h0 h1 hp).bind fun x y hxy => diagonalLoop_inStep hd needed ints n l x y (fun e he => hl e (List.mem_cons_of_mem _ he)) hxy
    · exact .ok hp

/-- The calls of a user are of the kinds `diags` and `cols`. -/
def Anytime.Op.kind (diags cols : Prop) : Anytime.Op → Prop
  | .diagonals _ _ => diags
  | .columns _ _ _ => cols

theorem anytimeRun_inStep (h0 : 0 ≤ w) (needed : List Nat) : ∀ (calls : List Anytime.Op) (st : Anytime G C K) (st' : Anytime G C' K), (∀ o ∈ calls, o.kind diags cols) →
    AnytimeStepPair h w P st st' → Alike (AnytimeStepPair h w P) (Anytime.run ops needed calls st) (Anytime.run ops' needed calls st')
  | [], _, _, _, hp => .ok hp
  | o :: calls, st, st', hk, hp => by
    unfold Anytime.run
    refine Alike.bind (R := AnytimeStepPair h w P) ?_ fun x y hxy => anytimeRun_inStep h0 needed calls x y (fun e he => hk e (List.mem_cons_of_mem _ he)) hxy
    have hk := hk o List.mem_cons_self
    cases o with
    | diagonals ints a =>
      show Alike _ (st.calculateDiagonals ops needed ints a) (st'.calculateDiagonals ops' needed ints a)
      unfold Anytime.calculateDiagonals
      rw [hp.base.gens, hp.base.numQuery, hp.base.numSeries, hp.total, hp.order, hp.next]
      refine (Alike.refl _).bind fun _ _ _ => (Alike.refl _).bind fun n n' e => ?_
      subst e
      exact diagonalLoop_inStep hs hk needed ints n _ _ _ (fun d hd => hp.inside d (List.mem_of_mem_drop hd)) hp
    | columns ints start upto =>
      show Alike _ (st.calculateColumns ops needed ints start upto) (st'.calculateColumns ops' needed ints start upto)
      unfold Anytime.calculateColumns
      rw [hp.base.numSeries, hp.base.numQuery]
      have hw := hp.base.width
      rcases calculateColumns_inStep hs hk st.base.numSeries st.base.numQuery (by omega) (by omega) needed ints start upto hp.base with ⟨e, e1, e2⟩ | ⟨a, b, e1, e2, hab⟩
      · rw [e1, e2]; exact .err e
      · rw [e1, e2]
        exact .ok ⟨hab, hp.series, hp.query, hp.order, hp.total, hp.next, hp.calculated, hp.inside⟩

omit hs in
theorem calcInit_inStep (selfJoin : Bool) (m ns nq : Int) (nDim : Nat) (buffer : Option Int) (hj : selfJoin = true → nq = ns) :
    Alike (fun x y => StepPair nq ns P x y ∧ x.selfJoin = selfJoin ∧ (selfJoin = true → -1 ≤ x.buffer))
      (Calc.init selfJoin m ns nq nDim buffer : Except PyErr (Calc G C)) (Calc.init selfJoin m ns nq nDim buffer : Except PyErr (Calc G C')) := by
  unfold Calc.init
  cases selfJoin with
  | true =>
    have := hj rfl
    subst this
    simp only [if_true]
    split
    · rename_i hb
      exact .ok ⟨⟨rfl, rfl, rfl, rfl, rfl, rfl, rfl, .nil, rfl, rfl, rfl, fun _ => rfl⟩, rfl, fun _ => (mem_pyRange.mp hb).1⟩
    · exact .err _
  | false => exact .ok ⟨⟨rfl, rfl, rfl, rfl, rfl, rfl, rfl, .nil, rfl, rfl, rfl, fun h => by cases h⟩, rfl, fun h => by cases h⟩

omit hs in
theorem anytimeInit_inStep (shuffle : List Int → List Int) (hsh : ∀ l, ∀ d ∈ shuffle l, d ∈ l) (m : Int) (series : List (List (Fl K))) (query : Option (List (List (Fl K))))
    (buffer : Option Int) : Alike (AnytimeStepPair (Anytime.npCols (query.getD series) - m + 1) (Anytime.npCols series - m + 1) P)
      (Anytime.init shuffle m series query buffer : Except PyErr (Anytime G C K)) (Anytime.init shuffle m series query buffer : Except PyErr (Anytime G C' K)) := by
  unfold Anytime.init
  dsimp only
  split
  · exact .err _
  · refine (calcInit_inStep (P := P) query.isNone m _ _ _ buffer (by cases query with | none => exact fun _ => rfl | some q => exact fun h => by cases h)).bind fun a b hab => ?_
    obtain ⟨hp, hj, hb⟩ := hab
    refine .ok ⟨hp, rfl, rfl, ?_, ?_, rfl, rfl, fun d hd => ?_⟩
    · dsimp only
      unfold Anytime.diagonals
      rw [hp.selfJoin, hp.buffer, hp.numSeries, hp.numQuery]
    · dsimp only
      rw [hp.selfJoin, hp.buffer, hp.numSeries, hp.numQuery]
    · have hd' : d ∈ Anytime.diagonals a := hsh _ _ hd
      clear hd
      unfold Anytime.diagonals at hd'
      have hw := hp.width
      have hh := hp.height
      have hjw := hp.join
      rw [hj] at hd' hjw
      cases query with
      | none =>
        have := hb rfl
        have := hjw rfl
        simp only [Option.isNone_none, if_true] at hd'
        have hd := mem_pyRange.mp hd'
        omega
      | some q =>
        simp only [Option.isNone_some, Bool.false_eq_true, if_false] at hd'
        have hd := mem_pyRange.mp hd'
        omega

omit hs in
theorem anytimeGenerators_inStep : ∀ (gens : List ((Int → List (Fl K) → Option (List (Fl K)) → Except PyErr G) × Nat)) (st : Anytime G C K) (st' : Anytime G C' K),
    AnytimeStepPair h w P st st' → Alike (AnytimeStepPair h w P) (Anytime.addGenerators gens st) (Anytime.addGenerators gens st')
  | [], _, _, hp => .ok hp
  | g :: gens, st, st', hp => by
    unfold Anytime.addGenerators
    refine Alike.bind (R := AnytimeStepPair h w P) ?_ fun x y hxy => anytimeGenerators_inStep gens x y hxy
    unfold Anytime.addGenerator
    rw [hp.base.nDim, hp.series, hp.query, hp.base.selfJoin, hp.base.m, hp.base.gens]
    split
    · exact .err _
    · refine (Alike.refl _).bind fun s s' e => ?_
      subst e
      have key : ∀ x : G, AnytimeStepPair h w P { st with base := { st.base with gens := st.base.gens ++ [(x, ((g.2 : Nat) : Int).toNat)] } }
          { st' with base := { st'.base with gens := st.base.gens ++ [(x, ((g.2 : Nat) : Int).toNat)] } } := fun x =>
        ⟨⟨hp.base.selfJoin, hp.base.m, hp.base.nDim, hp.base.numSeries, hp.base.numQuery, hp.base.buffer, rfl, hp.base.cons, hp.base.lastCol, hp.base.width, hp.base.height, hp.base.join⟩, hp.series, hp.query,
          hp.order, hp.total, hp.next, hp.calculated, hp.inside⟩
      dsimp only
      split
      · refine (Alike.refl _).bind fun x x' e => ?_
        subst e
        have := key x
        rw [hp.series, hp.query] at this
        exact .ok this
      · refine (Alike.refl _).bind fun q q' e => ?_
        subst e
        refine (Alike.refl _).bind fun x x' e => ?_
        subst e
        have := key x
        rw [hp.series, hp.query] at this
        exact .ok this

omit hs in
theorem anytimeConsumers_inStep : ∀ (cs : List (C × List Nat)) (cs' : List (C' × List Nat)) (st : Anytime G C K) (st' : Anytime G C' K),
    List.Forall₂ (fun x y => Alike (P x.2 y.2) (ops.initialise x.1 x.2.length h w) (ops'.initialise y.1 y.2.length h w)) cs cs' →
    AnytimeStepPair h w P st st' → Alike (AnytimeStepPair h w P) (Anytime.addAllConsumers ops cs st) (Anytime.addAllConsumers ops' cs' st')
  | _, _, _, _, .nil, hp => .ok hp
  | x :: cs, y :: cs', st, st', .cons hx hxs, hp => by
    unfold Anytime.addAllConsumers
    refine Alike.bind (R := AnytimeStepPair h w P) ?_ fun a b hab => anytimeConsumers_inStep cs cs' a b hxs hab
    unfold Anytime.addConsumer
    exact (addConsumer_inStep x.2 y.2 x.1 y.1 hp.base hx).bind fun a b hab => .ok ⟨hab, hp.series, hp.query, hp.order, hp.total, hp.next, hp.calculated, hp.inside⟩
end

/-- Whole batch calculations. -/
theorem batch_inStep {diags cols shifts : Prop} {P : List Nat → List Nat → C → C' → Prop} {ops : Ops G C K} {ops' : Ops G C' K} (shuffle : List Int → List Int) (hsh : ∀ l, ∀ d ∈ shuffle l, d ∈ l)
    (gens : List ((Int → List (Fl K) → Option (List (Fl K)) → Except PyErr G) × Nat)) (consumers : List (C × List Nat)) (consumers' : List (C' × List Nat)) (needed : List Nat) (m : Int)
    (series : List (List (Fl K))) (query : Option (List (List (Fl K)))) (buffer : Option Int) (calls : List Anytime.Op) {h w : Int} (hh : h = Anytime.npCols (query.getD series) - m + 1)
    (hw : w = Anytime.npCols series - m + 1) (h0 : 0 ≤ w) (hs : InStep h w diags cols shifts P ops ops')
    (hi : List.Forall₂ (fun x y => Alike (P x.2 y.2) (ops.initialise x.1 x.2.length h w) (ops'.initialise y.1 y.2.length h w)) consumers consumers')
    (hk : ∀ o ∈ calls, o.kind diags cols) :
    Alike (ConsPair P) (batchAll ops shuffle gens consumers needed m series query buffer calls) (batchAll ops' shuffle gens consumers' needed m series query buffer calls) := by
  subst hh hw
  unfold batchAll
  exact (anytimeInit_inStep (P := P) shuffle hsh m series query buffer).bind fun a b hab => (anytimeGenerators_inStep gens a b hab).bind fun a b hab =>
    (anytimeConsumers_inStep consumers consumers' a b hi hab).bind fun a b hab => (anytimeRun_inStep hs h0 needed calls a b hk hab).bind fun a b hab => .ok hab.base.cons

/-! ### `StreamingCalculator` -/

/-- Calculators that differ in the consumers only. -/
structure StreamingStepPair (h w : Int) (P : List Nat → List Nat → C → C' → Prop) (st : Streaming G C) (st' : Streaming G C') : Prop where
  base : StepPair h w P st.base st'.base
  streamedSeries : st'.streamedSeries = st.streamedSeries
  streamedQuery : st'.streamedQuery = st.streamedQuery

section
variable {h w : Int} {diags cols shifts : Prop} {P : List Nat → List Nat → C → C' → Prop} {ops : Ops G C K} {ops' : Ops G C' K}

theorem streamingInit_inStep (m sw : Int) (qw : Option Int) (nDim : Nat) (buffer : Option Int) :
    Alike (StreamingStepPair (qw.getD sw - m + 1) (sw - m + 1) P) (Streaming.init m sw qw nDim buffer : Except PyErr (Streaming G C))
      (Streaming.init m sw qw nDim buffer : Except PyErr (Streaming G C')) := by
  unfold Streaming.init
  cases qw with
  | none => exact (calcInit_inStep (P := P) true m (sw - m + 1) (sw - m + 1) nDim buffer fun _ => rfl).bind fun a b hab => .ok ⟨hab.1, rfl, rfl⟩
  | some q => exact (calcInit_inStep (P := P) false m (sw - m + 1) (q - m + 1) nDim buffer fun h => by cases h).bind fun a b hab => .ok ⟨hab.1, rfl, rfl⟩

theorem streamingGenerators_inStep : ∀ (gens : List ((Int → Int → Option Int → Except PyErr G) × Nat)) (st : Streaming G C) (st' : Streaming G C'),
    StreamingStepPair h w P st st' → Alike (StreamingStepPair h w P) (Streaming.addGenerators gens st) (Streaming.addGenerators gens st')
  | [], _, _, hp => .ok hp
  | g :: gens, st, st', hp => by
    unfold Streaming.addGenerators
    refine Alike.bind (R := StreamingStepPair h w P) ?_ fun x y hxy => streamingGenerators_inStep gens x y hxy
    unfold Streaming.addGenerator
    rw [hp.base.nDim, hp.base.selfJoin, hp.base.m, hp.base.gens, hp.base.numSeries, hp.base.numQuery]
    split
    · exact .err _
    · refine (Alike.refl _).bind fun s s' e => ?_
      subst e
      exact .ok ⟨⟨hp.base.selfJoin, hp.base.m, hp.base.nDim, hp.base.numSeries, hp.base.numQuery, hp.base.buffer, rfl, hp.base.cons, hp.base.lastCol, hp.base.width, hp.base.height,
        hp.base.join⟩, hp.streamedSeries, hp.streamedQuery⟩

theorem streamingConsumers_inStep : ∀ (cs : List (C × List Nat)) (cs' : List (C' × List Nat)) (st : Streaming G C) (st' : Streaming G C'),
    List.Forall₂ (fun x y => Alike (P x.2 y.2) (ops.initialise x.1 x.2.length h w) (ops'.initialise y.1 y.2.length h w)) cs cs' →
    StreamingStepPair h w P st st' → Alike (StreamingStepPair h w P) (Streaming.addConsumers ops cs st) (Streaming.addConsumers ops' cs' st')
  | _, _, _, _, .nil, hp => .ok hp
  | x :: cs, y :: cs', st, st', .cons hx hxs, hp => by
    unfold Streaming.addConsumers
    refine Alike.bind (R := StreamingStepPair h w P) ?_ fun a b hab => streamingConsumers_inStep cs cs' a b hxs hab
    unfold Streaming.addConsumer
    exact (addConsumer_inStep x.2 y.2 x.1 y.1 hp.base hx).bind fun a b hab => .ok ⟨hab, hp.streamedSeries, hp.streamedQuery⟩

theorem shiftCons_inStep {f : C → Except PyErr C} {f' : C' → Except PyErr C'} (hf : ∀ ids ids' c c', P ids ids' c c' → Alike (P ids ids') (f c) (f' c')) {cons : List (C × List Nat)}
    {cons' : List (C' × List Nat)} (hp : ConsPair P cons cons') : Alike (ConsPair P) (Streaming.shiftCons f cons) (Streaming.shiftCons f' cons') := by
  unfold Streaming.shiftCons
  refine Alike.mapM (R := fun x y => P x.2 y.2 x.1 y.1) (fun x y hxy => ?_) hp
  exact Alike.bind (hf _ _ _ _ hxy) fun c c' hc => Alike.ok (R := fun x y : _ × List Nat => P x.2 y.2 x.1 y.1) hc

theorem shiftOf_nonneg (window streamed : Int) (n : Nat) : 0 ≤ Streaming.shiftOf window streamed n := by
  unfold Streaming.shiftOf
  split <;> omega

variable (hs : InStep h w diags cols True P ops ops')
include hs

theorem streamingSeries_inStep (v : NDArray K) {st : Streaming G C} {st' : Streaming G C'} (hp : StreamingStepPair h w P st st') :
    Alike (StreamingStepPair h w P) (st.appendSeries ops v) (st'.appendSeries ops' v) := by
  unfold Streaming.appendSeries
  rw [hp.base.nDim, hs.appendSeries, hp.base.gens]
  refine (Alike.refl _).bind fun r r' e => ?_
  subst e
  obtain ⟨rows, n⟩ := r
  dsimp only
  refine (Alike.refl _).bind fun gs gs' e => ?_
  subst e
  rw [hp.base.numSeries, hp.base.m, hp.streamedSeries, hp.base.selfJoin, hp.base.lastCol]
  have h0 := shiftOf_nonneg (st.base.numSeries + st.base.m - 1) st.streamedSeries n
  split
  · rename_i hne
    have hpos : 0 < Streaming.shiftOf (st.base.numSeries + st.base.m - 1) st.streamedSeries n := by omega
    refine Alike.bind (R := ConsPair P) ?_ fun cons cons' hc => .ok ⟨⟨rfl, rfl, hp.base.nDim, rfl, hp.base.numQuery, hp.base.buffer, rfl, hc, rfl, hp.base.width, hp.base.height, hp.base.join⟩,
      rfl, hp.streamedQuery⟩
    unfold Streaming.shiftBoth
    refine (shiftCons_inStep (fun ids ids' c c' hc => hs.series trivial ids ids' c c' hc _ hpos) hp.base.cons).bind fun cons cons' hc => ?_
    split
    · exact shiftCons_inStep (fun ids ids' c c' hc => hs.query trivial ids ids' c c' hc _ hpos) hc
    · exact .ok hc
  · exact .ok ⟨⟨rfl, rfl, hp.base.nDim, rfl, hp.base.numQuery, hp.base.buffer, rfl, hp.base.cons, rfl, hp.base.width, hp.base.height, hp.base.join⟩, rfl, hp.streamedQuery⟩

theorem streamingQuery_inStep (v : NDArray K) {st : Streaming G C} {st' : Streaming G C'} (hp : StreamingStepPair h w P st st') :
    Alike (StreamingStepPair h w P) (st.appendQuery ops v) (st'.appendQuery ops' v) := by
  unfold Streaming.appendQuery
  rw [hp.base.nDim, hs.appendQuery, hp.base.gens, hp.base.selfJoin]
  split
  · exact .err _
  refine (Alike.refl _).bind fun r r' e => ?_
  subst e
  obtain ⟨rows, n⟩ := r
  dsimp only
  refine (Alike.refl _).bind fun gs gs' e => ?_
  subst e
  rw [hp.base.numQuery, hp.base.m, hp.streamedQuery]
  have h0 := shiftOf_nonneg (st.base.numQuery + st.base.m - 1) st.streamedQuery n
  split
  · rename_i hne
    have hpos : 0 < Streaming.shiftOf (st.base.numQuery + st.base.m - 1) st.streamedQuery n := by omega
    exact (shiftCons_inStep (fun ids ids' c c' hc => hs.query trivial ids ids' c c' hc _ hpos) hp.base.cons).bind fun cons cons' hc => .ok ⟨⟨hp.base.selfJoin, rfl, hp.base.nDim, hp.base.numSeries, rfl, hp.base.buffer, rfl, hc,
      hp.base.lastCol, hp.base.width, hp.base.height, hp.base.join⟩, hp.streamedSeries, rfl⟩
  · exact .ok ⟨⟨hp.base.selfJoin, rfl, hp.base.nDim, hp.base.numSeries, rfl, hp.base.buffer, rfl, hp.base.cons, hp.base.lastCol, hp.base.width, hp.base.height, hp.base.join⟩, hp.streamedSeries, rfl⟩

theorem streamingColumns_inStep (hcols : cols) (h0 : 0 ≤ w) (needed : List Nat) (ints : Int → Bool) (n : PyNum) {st : Streaming G C} {st' : Streaming G C'} (hp : StreamingStepPair h w P st st') :
    Alike (StreamingStepPair h w P) (st.calculateColumns ops needed ints none n) (st'.calculateColumns ops' needed ints none n) := by
  unfold Streaming.calculateColumns
  have e1 : st'.maxColumn = st.maxColumn := by unfold Streaming.maxColumn; rw [hp.streamedSeries, hp.base.m, hp.base.numSeries]
  have e2 : st'.maxRow = st.maxRow := by unfold Streaming.maxRow; rw [e1, hp.base.selfJoin, hp.streamedQuery, hp.base.m, hp.base.numQuery]
  rw [e1, e2]
  have hmax : 0 ≤ st.maxColumn ∧ st.maxColumn ≤ w := by
    unfold Streaming.maxColumn
    rw [hp.base.width]
    omega
  exact (calculateColumns_inStep hs hcols st.maxColumn st.maxRow hmax.1 hmax.2 needed ints none n hp.base).bind fun a b hab => .ok ⟨hab, hp.streamedSeries, hp.streamedQuery⟩

theorem streamingRun_inStep (hcols : cols) (h0 : 0 ≤ w) (needed : List Nat) : ∀ (calls : List (Streaming.Op K)) (st : Streaming G C) (st' : Streaming G C'), StreamingStepPair h w P st st' →
    Alike (StreamingStepPair h w P) (Streaming.run ops needed calls st) (Streaming.run ops' needed calls st')
  | [], _, _, hp => .ok hp
  | o :: calls, st, st', hp => by
    unfold Streaming.run
    refine Alike.bind (R := StreamingStepPair h w P) ?_ fun x y hxy => streamingRun_inStep hcols h0 needed calls x y hxy
    cases o with
    | series v => exact streamingSeries_inStep hs v hp
    | query v => exact streamingQuery_inStep hs v hp
    | columns ints n => exact streamingColumns_inStep hs hcols h0 needed ints n hp
end

/-- Whole streaming calculations. -/
theorem stream_inStep {diags : Prop} {P : List Nat → List Nat → C → C' → Prop} {ops : Ops G C K} {ops' : Ops G C' K}
    (gens : List ((Int → Int → Option Int → Except PyErr G) × Nat)) (consumers : List (C × List Nat)) (consumers' : List (C' × List Nat)) (needed : List Nat) (m sw : Int)
    (qw : Option Int) (nDim : Nat) (buffer : Option Int) (calls : List (Streaming.Op K)) {h w : Int} (hh : h = qw.getD sw - m + 1)
    (hw : w = sw - m + 1) (h0 : 0 ≤ w) (hs : InStep h w diags True True P ops ops')
    (hi : List.Forall₂ (fun x y => Alike (P x.2 y.2) (ops.initialise x.1 x.2.length h w) (ops'.initialise y.1 y.2.length h w)) consumers consumers') :
    Alike (ConsPair P) (streamAll ops gens consumers needed m sw qw nDim buffer calls) (streamAll ops' gens consumers' needed m sw qw nDim buffer calls) := by
  subst hh hw
  unfold streamAll
  exact (streamingInit_inStep (P := P) m sw qw nDim buffer).bind fun a b hab => (streamingGenerators_inStep gens a b hab).bind fun a b hab =>
    (streamingConsumers_inStep consumers consumers' a b hi hab).bind fun a b hab => (streamingRun_inStep hs trivial h0 needed calls a b hab).bind fun a b hab => .ok hab.base.cons

end Verif
