import Verif.Props.Columns
import Verif.Spec.Cells

/-!
# C18, C20, C21, C22 for diagonals: `AnytimeCalculator.calculate_diagonals`
-/

namespace Verif
open Spec
variable {G C K : Type}

/-- The events of one diagonal for a consumer whose rows are `vals`. -/
def diagEvs (selfJoin : Bool) (d : Int) (vals : List (List (Fl K))) : List (CEvent K) :=
  .diagonal d vals :: if selfJoin then [.diagonal (-d) vals] else []

abbrev DiagRound (ops : Ops G C K) (st : Anytime G C K) (needed : List Nat) :=
  RoundRel ops ops.calcDiagonal (fun d => (diagLength st.base.numQuery st.base.numSeries d).toNat) needed (diagEvs st.base.selfJoin)
abbrev DiagRounds (ops : Ops G C K) (st : Anytime G C K) (needed : List Nat) :=
  RoundsRel ops ops.calcDiagonal (fun d => (diagLength st.base.numQuery st.base.numSeries d).toNat) needed (diagEvs st.base.selfJoin)

/-- Total number of values of diagonals. -/
def lens (st : Anytime G C K) (xs : List Int) : Int := (xs.map (diagLength st.base.numQuery st.base.numSeries)).sum

theorem diagonalStep_iff (ops : Ops G C K) (needed : List Nat) (hnd : needed.Nodup) (d : Int) (st st' : Anytime G C K)
    (hc : Covers needed st.base.cons) :
    Anytime.diagonalStep ops needed d st = .ok st' ↔
      DiagRound ops st needed d (st.base.gens, st.base.cons) (st'.base.gens, st'.base.cons) ∧
        st' = { st with base := { st.base with gens := st'.base.gens, cons := st'.base.cons },
                        calculated := st.calculated + diagLength st.base.numQuery st.base.numSeries d, next := st.next + 1 } := by
  have key := fun gens' cons' => round_iff ops ops.calcDiagonal (fun d => (diagLength st.base.numQuery st.base.numSeries d).toNat)
    needed hnd (diagEvs st.base.selfJoin) id d st.base.gens gens' st.base.cons cons'
    (List.replicate st.base.gens.length (List.replicate (diagLength st.base.numQuery st.base.numSeries d).toNat Fl.nan)) (by simp) hc
    (fun c vals => Anytime.deliverDiagonal ops st.base.selfJoin d c vals)
    (by
      intro c vals
      rw [List.map_id, diagEvs, feed, Anytime.deliverDiagonal]
      congr 1
      funext c'
      split
      · rw [feed_singleton]; rfl
      · rfl)
  simp only [List.map_id] at key
  constructor
  · intro h
    unfold Anytime.diagonalStep at h
    simp only at h
    obtain ⟨⟨gens', rows1⟩, h1, h⟩ := bind_ok_iff.mp h
    obtain ⟨cons', h2, h⟩ := bind_ok_iff.mp h
    rw [pure_ok_iff] at h
    subst h
    exact ⟨(key gens' cons').mp ⟨rows1, h1, h2⟩, rfl⟩
  · rintro ⟨h, he⟩
    obtain ⟨rows1, h1, h2⟩ := (key st'.base.gens st'.base.cons).mpr h
    unfold Anytime.diagonalStep
    simp only
    refine bind_ok_iff.mpr ⟨(st'.base.gens, rows1), h1, bind_ok_iff.mpr ⟨st'.base.cons, h2, ?_⟩⟩
    rw [pure_ok_iff]
    exact he

/-- State after the diagonals `xs`. -/
def DiagsDone (ops : Ops G C K) (needed : List Nat) (xs : List Int) (st st' : Anytime G C K) : Prop :=
  DiagRounds ops st needed xs (st.base.gens, st.base.cons) (st'.base.gens, st'.base.cons) ∧
    st' = { st with base := { st.base with gens := st'.base.gens, cons := st'.base.cons },
                    calculated := st.calculated + lens st xs, next := st.next + xs.length }

/-- How many diagonals the loop does; `none` if it runs past the end of the list. -/
def diagCount (ints : Nat → Bool) (v : Int) : List Int → Int → Nat → Option Nat
  | [], c, n => if c < v ∧ ints n = false then none else some 0
  | l :: ls, c, n => if c < v ∧ ints n = false then (diagCount ints v ls (c + l) (n + 1)).map (· + 1) else some 0

theorem diagCount_le (ints : Nat → Bool) (v : Int) (ls : List Int) (c : Int) (n k : Nat) (h : diagCount ints v ls c n = some k) :
    k ≤ ls.length := by
  induction ls generalizing c n k with
  | nil => unfold diagCount at h; split at h <;> simp at h; simp [← h]
  | cons l ls ih =>
    unfold diagCount at h
    split at h
    · rw [Option.map_eq_some_iff] at h
      obtain ⟨k', h1, rfl⟩ := h
      have := ih _ _ _ h1
      simp; omega
    · simp at h; omega

theorem DiagsDone.fields {ops : Ops G C K} {needed : List Nat} {xs : List Int} {st st' : Anytime G C K}
    (h : DiagsDone ops needed xs st st') :
    st'.calculated = st.calculated + lens st xs ∧ st'.next = st.next + xs.length ∧ st'.base.numQuery = st.base.numQuery ∧
      st'.base.numSeries = st.base.numSeries ∧ st'.base.selfJoin = st.base.selfJoin ∧ st'.order = st.order ∧ st'.total = st.total ∧
      st'.base.cons.map Prod.snd = st.base.cons.map Prod.snd ∧ st'.base.buffer = st.base.buffer := by
  obtain ⟨h1, h2⟩ := h
  have := h1.ids
  refine ⟨?_, ?_, ?_, ?_, ?_, ?_, ?_, this, ?_⟩ <;> rw [h2]

theorem DiagsDone.append (ops : Ops G C K) (needed : List Nat) (xs ys : List Int) (st st' : Anytime G C K) :
    DiagsDone ops needed (xs ++ ys) st st' ↔ ∃ st1, DiagsDone ops needed xs st st1 ∧ DiagsDone ops needed ys st1 st' := by
  constructor
  · rintro ⟨h, he⟩
    obtain ⟨s1, h1, h2⟩ := (RoundsRel_append ..).mp h
    refine ⟨{ st with base := { st.base with gens := s1.1, cons := s1.2 }, calculated := st.calculated + lens st xs, next := st.next + xs.length },
      ⟨h1, rfl⟩, h2, ?_⟩
    rw [he]
    simp [lens]
    constructor <;> ring
  · rintro ⟨st1, h1, h2⟩
    obtain ⟨f1, f2, f3, f4, f5, f6, f7, -⟩ := h1.fields
    obtain ⟨h1, e1⟩ := h1
    obtain ⟨h2, e2⟩ := h2
    simp only [DiagRounds, f3, f4, f5] at h2
    refine ⟨(RoundsRel_append ..).mpr ⟨_, h1, h2⟩, ?_⟩
    have hl : lens st1 ys = lens st ys := by unfold lens; rw [f3, f4]
    rw [hl] at e2
    rw [e2, f1, f2]
    rw [e1]
    simp [lens]
    constructor <;> ring

theorem diagonalLoop_iff (ops : Ops G C K) (needed : List Nat) (hnd : needed.Nodup) (ints : Nat → Bool) (v : Int) (xs : List Int)
    (st st' : Anytime G C K) (hc : Covers needed st.base.cons) :
    Anytime.diagonalLoop ops needed ints v xs st = .ok st' ↔
      ∃ k, diagCount ints v (xs.map (diagLength st.base.numQuery st.base.numSeries)) st.calculated st.next = some k ∧
        DiagsDone ops needed (xs.take k) st st' := by
  have hnil : ∀ st : Anytime G C K, DiagsDone ops needed [] st st' ↔ st' = st := by
    intro st
    constructor
    · rintro ⟨h1, h2⟩
      have h1' : (st'.base.gens, st'.base.cons) = (st.base.gens, st.base.cons) := h1
      simp only [Prod.mk.injEq] at h1'
      rw [h2, h1'.1, h1'.2]
      simp [lens]
    · rintro rfl
      exact ⟨rfl, by simp [lens]⟩
  induction xs generalizing st with
  | nil =>
    simp only [Anytime.diagonalLoop, List.map_nil, diagCount, List.take_nil]
    split
    · simp
    · simp only [Except.ok.injEq, Option.some.injEq, exists_eq_left', hnil]; exact eq_comm
  | cons d xs ih =>
    simp only [Anytime.diagonalLoop, List.map_cons, diagCount]
    split
    · rw [bind_ok_iff]
      have one : ∀ st1, Anytime.diagonalStep ops needed d st = .ok st1 ↔ DiagsDone ops needed [d] st st1 := by
        intro st1
        rw [diagonalStep_iff ops needed hnd d st st1 hc]
        unfold DiagsDone
        simp only [DiagRounds, RoundsRel, lens, List.map_cons, List.map_nil, List.sum_cons, List.sum_nil, add_zero, List.length_singleton]
        constructor
        · rintro ⟨h1, h2⟩; exact ⟨⟨_, h1, rfl⟩, h2⟩
        · rintro ⟨⟨s1, h1, h1'⟩, h2⟩; rw [← h1'] at h1; exact ⟨h1, h2⟩
      have step : ∀ st1, DiagsDone ops needed [d] st st1 → (Anytime.diagonalLoop ops needed ints v xs st1 = .ok st' ↔
          ∃ k, diagCount ints v (xs.map (diagLength st.base.numQuery st.base.numSeries))
            (st.calculated + diagLength st.base.numQuery st.base.numSeries d) (st.next + 1) = some k ∧ DiagsDone ops needed (xs.take k) st1 st') := by
        intro st1 h1
        obtain ⟨f1, f2, f3, f4, f5, f6, f7, f8, -⟩ := h1.fields
        have hih := ih st1 (Covers.of_ids f8 hc)
        rw [f1, f2, f3, f4] at hih
        refine hih.trans ?_
        simp [lens]
      constructor
      · rintro ⟨st1, h1, h2⟩
        obtain ⟨k, hk, h3⟩ := (step st1 ((one st1).mp h1)).mp h2
        exact ⟨k + 1, by simp [hk], (DiagsDone.append ops needed [d] (xs.take k) st st').mpr ⟨st1, (one st1).mp h1, h3⟩⟩
      · rintro ⟨k, hk, h⟩
        rw [Option.map_eq_some_iff] at hk
        obtain ⟨k', hk', rfl⟩ := hk
        obtain ⟨st1, h1, h2⟩ := (DiagsDone.append ops needed [d] (xs.take k') st st').mp h
        exact ⟨st1, (one st1).mpr h1, (step st1 h1).mpr ⟨k', hk', h2⟩⟩
    · simp only [Except.ok.injEq, Option.some.injEq, exists_eq_left', List.take_zero, hnil]; exact eq_comm

/-- What holds in every reachable state of an `AnytimeCalculator`. -/
structure Anytime.Valid (st : Anytime G C K) (needed : List Nat) : Prop where
  needed : st.base.Needed needed
  order : st.order.Perm (Anytime.diagonals st.base)
  next : st.next ≤ st.order.length
  calculated : st.calculated = lens st (st.order.take st.next)
  total : st.total = lens st st.order
  pos : ∀ d ∈ st.order, 0 < diagLength st.base.numQuery st.base.numSeries d
  rows : 0 ≤ st.base.numQuery
  cols : 0 ≤ st.base.numSeries

/-- A concrete case: 3 subsequences, self-join with buffer 0. -/
def recAnytime : Anytime Nat (List (Int × List (List (Fl Int)))) Int :=
  { base := recCalc, series := [[.fin 3, .fin 1, .fin 4, .fin 1]], query := [[.fin 3, .fin 1, .fin 4, .fin 1]], order := [2, 1], total := 3, next := 0, calculated := 0 }

theorem recAnytime_valid : recAnytime.Valid [1] := by
  refine ⟨⟨by decide, by intro id; simp [recAnytime, recCalc]⟩, ?_, by decide, by decide, by decide, by decide, by decide, by decide⟩
  show [2, 1].Perm _
  decide

/-- A join of 2 with 3 subsequences. -/
def recJoin : Anytime Nat (List (Int × List (List (Fl Int)))) Int :=
  { base := { recCalc with selfJoin := false, numQuery := 2, buffer := -1 }, series := [[.fin 3, .fin 1, .fin 4, .fin 1]], query := [[.fin 1, .fin 5, .fin 9]], order := [2, 0, -1, 1], total := 6,
    next := 0, calculated := 0 }

theorem recJoin_valid : recJoin.Valid [1] := by
  refine ⟨⟨by decide, by intro id; simp [recJoin, recCalc]⟩, ?_, by decide, by decide, by decide, by decide, by decide, by decide⟩
  show [2, 0, -1, 1].Perm _
  decide

theorem Anytime.Valid.covers {st : Anytime G C K} {needed : List Nat} (h : st.Valid needed) : Covers needed st.base.cons :=
  fun c hcm id hid => (h.needed.mem id).mpr ⟨c, hcm, hid⟩

theorem lens_append (st : Anytime G C K) (xs ys : List Int) : lens st (xs ++ ys) = lens st xs + lens st ys := by simp [lens]

theorem sum_nonneg' (l : List Int) (h : ∀ x ∈ l, 0 ≤ x) : 0 ≤ l.sum := by
  induction l with
  | nil => simp
  | cons a l ih =>
    have := h a List.mem_cons_self
    have := ih (fun x hx => h x (List.mem_cons_of_mem _ hx))
    rw [List.sum_cons]; omega

theorem lens_nonneg (st : Anytime G C K) (xs : List Int) : 0 ≤ lens st xs := by
  unfold lens
  apply sum_nonneg'
  intro x hx
  obtain ⟨d, _, rfl⟩ := List.mem_map.mp hx
  unfold diagLength; split <;> omega

theorem needed_of_ids {a b : Calc G C} {needed : List Nat} (h : b.cons.map Prod.snd = a.cons.map Prod.snd) (hn : a.Needed needed) :
    b.Needed needed := by
  constructor
  · exact hn.nodup
  · intro id
    rw [hn.mem]
    have e1 : ∀ l : List (C × List Nat), (∃ c ∈ l, id ∈ c.2) ↔ ∃ x ∈ l.map Prod.snd, id ∈ x := by
      intro l; simp only [List.mem_map, exists_exists_and_eq_and]
    rw [e1, e1, h]

theorem DiagsDone.valid {ops : Ops G C K} {needed : List Nat} {k : Nat} {st st' : Anytime G C K}
    (h : DiagsDone ops needed ((st.order.drop st.next).take k) st st') (hk : k ≤ (st.order.drop st.next).length)
    (hv : st.Valid needed) : st'.Valid needed := by
  obtain ⟨f1, f2, f3, f4, f5, f6, f7, f8, f9⟩ := h.fields
  have hl : ∀ xs, lens st' xs = lens st xs := by intro xs; unfold lens; rw [f3, f4]
  have hn : st'.next = st.next + k := by rw [f2, List.length_take]; omega
  have := hv.next
  rw [List.length_drop] at hk
  constructor
  · exact needed_of_ids f8 hv.needed
  · rw [f6]
    have : Anytime.diagonals st'.base = Anytime.diagonals st.base := by
      unfold Anytime.diagonals; rw [f3, f4, f5, f9]
    rw [this]; exact hv.order
  · rw [f6, hn]; omega
  · rw [f1, hl, hv.calculated, ← lens_append, f6, hn]
    congr 1
    rw [List.take_add]
  · rw [f7, hl, f6]; exact hv.total
  · rw [f6, f3, f4]; exact hv.pos
  · rw [f3]; exact hv.rows
  · rw [f4]; exact hv.cols

/-- `calculate_diagonals` in a valid state. -/
theorem calculateDiagonals_iff (ops : Ops G C K) (needed : List Nat) (ints : Nat → Bool) (p : PyNum) (v : Int) (st st' : Anytime G C K)
    (hv : st.Valid needed) (hp : ratioToInt p st.total st.total = .ok v) :
    st.calculateDiagonals ops needed ints p = .ok st' ↔
      ∃ k, diagCount ints v ((st.order.drop st.next).map (diagLength st.base.numQuery st.base.numSeries)) st.calculated st.next = some k ∧
        DiagsDone ops needed ((st.order.drop st.next).take k) st st' := by
  rw [← diagonalLoop_iff ops needed hv.needed.nodup ints v _ st st' hv.covers]
  unfold Anytime.calculateDiagonals
  have hfull : npFullNan K st.base.gens.length (min st.base.numQuery st.base.numSeries) =
      .ok (List.replicate st.base.gens.length (List.replicate (min st.base.numQuery st.base.numSeries).toNat .nan)) := by
    unfold npFullNan
    rw [if_neg]
    have := hv.rows; have := hv.cols
    omega
  simp only [hfull, hp, bind, Except.bind]

/-- In a valid state the loop never runs past the list of diagonals. -/
theorem diagCount_total (ints : Nat → Bool) (v : Int) (ls : List Int) (c : Int) (n : Nat) (hv : v ≤ c + ls.sum) :
    ∃ k, diagCount ints v ls c n = some k := by
  induction ls generalizing c n with
  | nil => unfold diagCount; simp at hv; rw [if_neg (by omega)]; exact ⟨0, rfl⟩
  | cons l ls ih =>
    unfold diagCount
    split
    · obtain ⟨k, hk⟩ := ih (c + l) (n + 1) (by simp at hv; omega)
      exact ⟨k + 1, by simp [hk]⟩
    · exact ⟨0, rfl⟩

theorem Anytime.Valid.rest {st : Anytime G C K} {needed : List Nat} (hv : st.Valid needed) :
    st.calculated + ((st.order.drop st.next).map (diagLength st.base.numQuery st.base.numSeries)).sum = st.total := by
  rw [hv.calculated, hv.total]
  show lens st _ + lens st _ = _
  rw [← lens_append, List.take_append_drop]

/-- Stopping earlier and going on is the same as going on directly. -/
theorem diagCount_resume (ints : Nat → Bool) (v1 v2 : Int) (h : v1 ≤ v2) (ls : List Int) (c : Int) (n k1 : Nat)
    (h1 : diagCount ints v1 ls c n = some k1) :
    diagCount (fun _ => false) v2 ls c n = (diagCount (fun _ => false) v2 (ls.drop k1) (c + (ls.take k1).sum) (n + k1)).map (k1 + ·) := by
  induction ls generalizing c n k1 with
  | nil =>
    have := diagCount_le _ _ _ _ _ _ h1
    have : k1 = 0 := by simpa using this
    subst this
    simp
  | cons l ls ih =>
    unfold diagCount at h1
    split at h1
    · rename_i hcond
      rw [Option.map_eq_some_iff] at h1
      obtain ⟨k, hk, rfl⟩ := h1
      conv_lhs => unfold diagCount
      rw [if_pos ⟨by omega, rfl⟩, ih _ _ _ hk]
      simp only [List.drop_succ_cons, List.take_succ_cons, List.sum_cons, Option.map_map]
      rw [show c + l + (ls.take k).sum = c + (l + (ls.take k).sum) by ring, show n + 1 + k = n + (k + 1) by ring]
      congr 1
      funext x
      simp only [Function.comp]; omega
    · simp only [Option.some.injEq] at h1
      subst h1
      simp

/-- Continuing after a first (possibly interrupted, possibly smaller) calculation. -/
theorem calculateDiagonals_resume (ops : Ops G C K) (needed : List Nat) (ints : Nat → Bool) (p1 p2 : PyNum) (v1 v2 : Int)
    (st st' : Anytime G C K) (hv : st.Valid needed) (hp1 : ratioToInt p1 st.total st.total = .ok v1)
    (hp2 : ratioToInt p2 st.total st.total = .ok v2) (hle : v1 ≤ v2) :
    (st.calculateDiagonals ops needed ints p1 >>= Anytime.calculateDiagonals ops needed (fun _ => false) p2) = .ok st' ↔
      st.calculateDiagonals ops needed (fun _ => false) p2 = .ok st' := by
  rw [bind_ok_iff, calculateDiagonals_iff ops needed _ p2 v2 st st' hv hp2]
  have htot : 0 ≤ st.total := by rw [hv.total]; exact lens_nonneg _ _
  obtain ⟨k1, hk1⟩ := diagCount_total ints v1 ((st.order.drop st.next).map (diagLength st.base.numQuery st.base.numSeries)) st.calculated
    st.next (by rw [hv.rest]; exact (ratioToInt_nonneg _ _ _ _ htot hp1).2)
  have hk1le := diagCount_le _ _ _ _ _ _ hk1
  rw [List.length_map] at hk1le
  have step : ∀ st1, DiagsDone ops needed ((st.order.drop st.next).take k1) st st1 →
      (st1.calculateDiagonals ops needed (fun _ => false) p2 = .ok st' ↔
        ∃ k2, diagCount (fun _ => false) v2 (((st.order.drop st.next).map (diagLength st.base.numQuery st.base.numSeries)).drop k1)
          (st.calculated + (((st.order.drop st.next).map (diagLength st.base.numQuery st.base.numSeries)).take k1).sum) (st.next + k1) = some k2 ∧
          DiagsDone ops needed (((st.order.drop st.next).drop k1).take k2) st1 st') := by
    intro st1 h1
    have hv1 := h1.valid hk1le hv
    obtain ⟨f1, f2, f3, f4, f5, f6, f7, f8, f9⟩ := h1.fields
    rw [calculateDiagonals_iff ops needed _ p2 v2 st1 st' hv1 (by rw [f7]; exact hp2), f6, f1, f2, f3, f4, List.length_take,
      Nat.min_eq_left hk1le, List.drop_drop, ← List.map_drop, List.drop_drop, ← List.map_take]
    rfl
  have first : ∀ st1, st.calculateDiagonals ops needed ints p1 = .ok st1 ↔ DiagsDone ops needed ((st.order.drop st.next).take k1) st st1 := by
    intro st1
    rw [calculateDiagonals_iff ops needed ints p1 v1 st st1 hv hp1, hk1]
    simp
  rw [diagCount_resume ints v1 v2 hle _ _ _ _ hk1]
  constructor
  · rintro ⟨st1, h1, h2⟩
    obtain ⟨k2, hk2, h3⟩ := (step st1 ((first st1).mp h1)).mp h2
    refine ⟨k1 + k2, by rw [hk2]; rfl, ?_⟩
    rw [List.take_add, DiagsDone.append]
    exact ⟨st1, (first st1).mp h1, h3⟩
  · rintro ⟨k, hk, h⟩
    rw [Option.map_eq_some_iff] at hk
    obtain ⟨k2, hk2, rfl⟩ := hk
    rw [List.take_add, DiagsDone.append] at h
    obtain ⟨st1, h1, h2⟩ := h
    exact ⟨st1, (first st1).mpr h1, (step st1 h1).mpr ⟨k2, hk2, h2⟩⟩

/-- Valid states stay valid. -/
theorem calculateDiagonals_valid (ops : Ops G C K) (needed : List Nat) (ints : Nat → Bool) (p : PyNum)
    (st st' : Anytime G C K) (hv : st.Valid needed) (h : st.calculateDiagonals ops needed ints p = .ok st') :
    st'.Valid needed ∧ st'.total = st.total := by
  cases hp : ratioToInt p st.total st.total with
  | error e =>
    unfold Anytime.calculateDiagonals at h
    obtain ⟨_, _, h⟩ := bind_ok_iff.mp h
    rw [hp] at h
    cases h
  | ok v =>
    obtain ⟨k, hk, hd⟩ := (calculateDiagonals_iff ops needed ints p v st st' hv hp).mp h
    have hle := diagCount_le _ _ _ _ _ _ hk
    rw [List.length_map] at hle
    exact ⟨hd.valid hle hv, hd.fields.2.2.2.2.2.2.1⟩

/-! ### C22, C18 -/

/-- **C22** (diagonals): calculating an amount `v1` and then an amount `v2 ≥ v1` is the same as calculating `v2` directly:
same deliveries, same final state. -/
theorem C22_diagonals (ops : Ops G C K) (needed : List Nat) (p1 p2 : PyNum) (v1 v2 : Int) (st st' : Anytime G C K)
    (hv : st.Valid needed) (hp1 : ratioToInt p1 st.total st.total = .ok v1) (hp2 : ratioToInt p2 st.total st.total = .ok v2)
    (hle : v1 ≤ v2) :
    (st.calculateDiagonals ops needed (fun _ => false) p1 >>= Anytime.calculateDiagonals ops needed (fun _ => false) p2) = .ok st' ↔
      st.calculateDiagonals ops needed (fun _ => false) p2 = .ok st' :=
  calculateDiagonals_resume ops needed _ p1 p2 v1 v2 st st' hv hp1 hp2 hle

example := fun st' => C22_diagonals recOps [1] (.int 1) (.int 3) 1 3 recAnytime st' recAnytime_valid rfl rfl (by decide)

/-- Interrupted calls of `calculate_diagonals`, one after the other. -/
def interruptedDiagonals (ops : Ops G C K) (needed : List Nat) (p : PyNum) :
    List (Nat → Bool) → Anytime G C K → Except PyErr (Anytime G C K)
  | [], st => .ok st
  | ints :: rest, st => do interruptedDiagonals ops needed p rest (← st.calculateDiagonals ops needed ints p)

/-- **C18** (diagonals): however often a calculation is interrupted, and wherever, calling it again until it completes gives
exactly the deliveries and the final state of one uninterrupted call. -/
theorem C18_diagonals (ops : Ops G C K) (needed : List Nat) (p : PyNum) (v : Int) (oracles : List (Nat → Bool))
    (st st' : Anytime G C K) (hv : st.Valid needed) (hp : ratioToInt p st.total st.total = .ok v) :
    (interruptedDiagonals ops needed p oracles st >>= Anytime.calculateDiagonals ops needed (fun _ => false) p) = .ok st' ↔
      st.calculateDiagonals ops needed (fun _ => false) p = .ok st' := by
  induction oracles generalizing st with
  | nil => rfl
  | cons ints rest ih =>
    rw [← calculateDiagonals_resume ops needed ints p p v v st st' hv hp hp le_rfl]
    simp only [interruptedDiagonals, bind_assoc]
    rw [bind_ok_iff, bind_ok_iff]
    constructor
    · rintro ⟨st1, h1, h2⟩
      obtain ⟨hv1, ht⟩ := calculateDiagonals_valid ops needed ints p st st1 hv h1
      exact ⟨st1, h1, (ih st1 hv1 (by rw [ht]; exact hp)).mp h2⟩
    · rintro ⟨st1, h1, h2⟩
      obtain ⟨hv1, ht⟩ := calculateDiagonals_valid ops needed ints p st st1 hv h1
      exact ⟨st1, h1, (ih st1 hv1 (by rw [ht]; exact hp)).mpr h2⟩

example := fun st' => C18_diagonals recOps [1] (.int 3) 3 [fun k => k == 0, fun k => k == 1] recAnytime st' recAnytime_valid rfl

/-! ### C21 -/

theorem diagCount_spec (ints : Nat → Bool) (v : Int) (ls : List Int) (c : Int) (n k : Nat) (h : diagCount ints v ls c n = some k) :
    (∀ j < k, c + (ls.take j).sum < v ∧ ints (n + j) = false) ∧ ¬ (c + (ls.take k).sum < v ∧ ints (n + k) = false) := by
  induction ls generalizing c n k with
  | nil =>
    unfold diagCount at h
    split at h
    · cases h
    · rename_i hc
      simp only [Option.some.injEq] at h
      subst h
      exact ⟨by simp, by simpa using hc⟩
  | cons l ls ih =>
    unfold diagCount at h
    split at h
    · rename_i hc
      rw [Option.map_eq_some_iff] at h
      obtain ⟨k', hk, rfl⟩ := h
      obtain ⟨h1, h2⟩ := ih _ _ _ hk
      constructor
      · intro j hj
        cases j with
        | zero => simpa using hc
        | succ j =>
          have := h1 j (by omega)
          simp only [List.take_succ_cons, List.sum_cons]
          rw [show n + (j + 1) = n + 1 + j by omega]
          exact ⟨by omega, this.2⟩
      · simp only [List.take_succ_cons, List.sum_cons]
        rw [show n + (k' + 1) = n + 1 + k' by omega]
        intro hh
        exact h2 ⟨by omega, hh.2⟩
    · rename_i hc
      simp only [Option.some.injEq] at h
      subst h
      exact ⟨by simp, by simpa using hc⟩

/-- **C21**: `calculate_diagonals(partial)` (not interrupted), with `v` the requested number of values: afterwards at least
`v` values are calculated; without the last diagonal it would have been less; if `v` values had been calculated before,
nothing is done; and the count is the number of values on the diagonals done so far. -/
theorem C21_partial_amount (ops : Ops G C K) (needed : List Nat) (p : PyNum) (v : Int) (st st' : Anytime G C K)
    (hv : st.Valid needed) (hp : ratioToInt p st.total st.total = .ok v)
    (h : st.calculateDiagonals ops needed (fun _ => false) p = .ok st') :
    v ≤ st'.calculated ∧ v ≤ st.total ∧
    (v ≤ st.calculated → st' = st) ∧
    (st.calculated < v → ∃ d, st'.order[st'.next - 1]? = some d ∧
      st'.calculated - diagLength st'.base.numQuery st'.base.numSeries d < v) ∧
    st'.calculated = ((st'.order.take st'.next).map (diagLength st'.base.numQuery st'.base.numSeries)).sum ∧
    st.next ≤ st'.next := by
  have htot : 0 ≤ st.total := by rw [hv.total]; exact lens_nonneg _ _
  have hv' := (calculateDiagonals_valid ops needed _ p st st' hv h).1
  obtain ⟨k, hk, hd⟩ := (calculateDiagonals_iff ops needed _ p v st st' hv hp).mp h
  have hle := diagCount_le _ _ _ _ _ _ hk
  obtain ⟨c1, c2⟩ := diagCount_spec _ _ _ _ _ _ hk
  rw [List.length_map] at hle
  obtain ⟨f1, f2, f3, f4, f5, f6, f7, f8, f9⟩ := hd.fields
  rw [List.length_take, Nat.min_eq_left hle] at f2
  have hlens : ∀ j, (((st.order.drop st.next).map (diagLength st.base.numQuery st.base.numSeries)).take j).sum =
      lens st ((st.order.drop st.next).take j) := by intro j; rw [← List.map_take]; rfl
  simp only [hlens] at c1 c2
  simp only [and_true, not_lt] at c2
  refine ⟨by rw [f1]; exact c2, (ratioToInt_nonneg _ _ _ _ htot hp).2, ?_, ?_, hv'.calculated, by omega⟩
  · intro hge
    have : k = 0 := by
      by_contra hne
      have := (c1 0 (by omega)).1
      simp [lens] at this
      omega
    subst this
    obtain ⟨h1, h2⟩ := hd
    have h1' : (st'.base.gens, st'.base.cons) = (st.base.gens, st.base.cons) := h1
    simp only [Prod.mk.injEq] at h1'
    rw [h2, h1'.1, h1'.2]
    simp [lens]
  · intro hlt
    have hk0 : k ≠ 0 := by
      rintro rfl
      simp [lens] at c2
      omega
    rw [List.length_drop] at hle
    have hi : st.next + k - 1 < st.order.length := by have := hv.next; omega
    refine ⟨st.order[st.next + k - 1], ?_, ?_⟩
    · rw [f6, f2, List.getElem?_eq_getElem hi]
    · have h1 := (c1 (k - 1) (by omega)).1
      rw [f1, f3, f4]
      have : (st.order.drop st.next).take k = (st.order.drop st.next).take (k - 1) ++ [st.order[st.next + k - 1]] := by
        conv_lhs => rw [show k = (k - 1) + 1 by omega]
        rw [List.take_add_one, List.getElem?_drop, show st.next + (k - 1) = st.next + k - 1 by omega, List.getElem?_eq_getElem hi]
        rfl
      rw [this, lens_append]
      simp only [lens, List.map_cons, List.map_nil, List.sum_cons, List.sum_nil] at h1 ⊢
      omega

example := C21_partial_amount recOps [1] (.int 2) 2 recAnytime _ recAnytime_valid rfl rfl

/-! ### C20 -/

/-- **C20**: a calculator just constructed, with whatever shuffle, is in a valid state (adding generators and consumers does
not change the fields this is about). -/
theorem C20_init_valid (shuffle : List Int → List Int) (hsh : ∀ l, (shuffle l).Perm l) (m : Int) (series : List (List (Fl K)))
    (query : Option (List (List (Fl K)))) (buffer : Option Int) (st : Anytime G C K)
    (hinit : Anytime.init shuffle m series query buffer = .ok st) (hrow : 0 < st.base.numQuery) (hcol : 0 < st.base.numSeries) :
    st.Valid [] ∧ st.next = 0 ∧ st.calculated = 0 ∧ st.base.selfJoin = query.isNone ∧
      (query.isNone = true → st.base.numQuery = st.base.numSeries ∧ -1 ≤ st.base.buffer ∧ st.base.buffer < st.base.numSeries) := by
  unfold Anytime.init at hinit
  simp only at hinit
  split at hinit
  · cases hinit
  obtain ⟨base, hb, h⟩ := bind_ok_iff.mp hinit
  rw [pure_ok_iff] at h
  have hcons : base.cons = [] := by
    unfold Calc.init at hb
    simp only at hb
    split at hb
    · split at hb
      · cases hb; rfl
      · cases hb
    · cases hb; rfl
  have hself : base.selfJoin = query.isNone ∧ (query.isNone = true → base.numQuery = base.numSeries ∧ -1 ≤ base.buffer ∧ base.buffer < base.numSeries) := by
    cases hq : query.isNone with
    | true =>
      rw [hq] at hb
      obtain ⟨h1, h2, h3, h4⟩ := (C24_trivial_match_buffer (G := G) (C := C) _ _ _ _ buffer).1 base hb
      have hns : base.numSeries = Anytime.npCols series - m + 1 ∧ base.selfJoin = true := by
        simp only [Calc.init, if_true] at hb
        split at hb
        · cases hb; exact ⟨rfl, rfl⟩
        · cases hb
      exact ⟨hns.2, fun _ => ⟨by rw [h4, hns.1], h2, by rw [hns.1]; exact h3⟩⟩
    | false =>
      rw [hq] at hb
      simp only [Calc.init, Bool.false_eq_true, if_false, Except.ok.injEq] at hb
      exact ⟨by rw [← hb], fun h => by cases h⟩
  subst h
  simp only at hrow hcol ⊢
  obtain ⟨hs1, hs2⟩ := hself
  obtain ⟨nq, hnq⟩ : ∃ nq : Nat, base.numQuery = nq := ⟨base.numQuery.toNat, by omega⟩
  obtain ⟨ns, hns⟩ : ∃ ns : Nat, base.numSeries = ns := ⟨base.numSeries.toNat, by omega⟩
  refine ⟨⟨⟨by simp, by simp [hcons]⟩, hsh _, Nat.zero_le _, by simp [lens], ?_, ?_, by simp only; omega, by simp only; omega⟩, trivial, trivial, hs1, hs2⟩
  · unfold lens
    simp only
    rw [((hsh (Anytime.diagonals base)).map _).sum_eq]
    unfold Anytime.diagonals
    cases hsj : base.selfJoin with
    | true =>
      simp only [if_true]
      rw [hsj] at hs1
      obtain ⟨e1, e2, e3⟩ := hs2 hs1.symm
      have := C07_sum_self_join ns base.buffer e2 (by omega)
      unfold diagSum at this
      rw [e1, hns]
      rw [← this]
      omega
    | false =>
      simp only [Bool.false_eq_true, if_false]
      have := C07_sum_all nq ns
      unfold diagSum at this
      rw [hnq, hns, this]
  · intro d hd
    have hd := (hsh _).mem_iff.mp hd
    unfold Anytime.diagonals at hd
    simp only
    split at hd
    · rename_i hsj
      rw [hsj] at hs1
      obtain ⟨e1, e2, e3⟩ := hs2 hs1.symm
      rw [mem_pyRange] at hd
      unfold diagLength; split <;> omega
    · rw [mem_pyRange] at hd
      unfold diagLength; split <;> omega

example := C20_init_valid (G := Nat) (C := Nat) List.reverse (fun l => l.reverse_perm) 2 [[Fl.fin (3 : Int), .fin 1, .fin 4, .fin 1]] none (some 0) _ rfl
  (by decide) (by decide)

/-- **C20**: adding a generator or a consumer keeps the state valid (for the new set of needed generators). -/
theorem C20_add_valid (ops : Ops G C K) (st : Anytime G C K) (n0 : List Nat) (hv : st.Valid n0) (st' : Anytime G C K) :
    ((∃ prepare dim, st.addGenerator prepare dim = .ok st') → st'.Valid n0 ∧ st'.next = st.next ∧ st'.calculated = st.calculated) ∧
    ((∃ ids c, st.addConsumer ops ids c = .ok st') → ∀ needed, st'.base.Needed needed →
      st'.Valid needed ∧ st'.next = st.next ∧ st'.calculated = st.calculated) := by
  constructor
  · rintro ⟨prepare, dim, h⟩
    unfold Anytime.addGenerator at h
    simp only at h
    split at h
    · cases h
    · obtain ⟨s, _, h⟩ := bind_ok_iff.mp h
      have hg : ∃ g : G, st' = { st with base := { st.base with gens := st.base.gens ++ [(g, dim.toNat)] } } := by
        split at h
        · obtain ⟨g, _, h⟩ := bind_ok_iff.mp h
          rw [pure_ok_iff] at h
          exact ⟨g, h⟩
        · obtain ⟨q, _, h⟩ := bind_ok_iff.mp h
          obtain ⟨g, _, h⟩ := bind_ok_iff.mp h
          rw [pure_ok_iff] at h
          exact ⟨g, h⟩
      obtain ⟨g, rfl⟩ := hg
      exact ⟨⟨⟨hv.needed.nodup, hv.needed.mem⟩, hv.order, hv.next, hv.calculated, hv.total, hv.pos, hv.rows, hv.cols⟩, rfl, rfl⟩
  · rintro ⟨ids, c, h⟩ needed hn
    unfold Anytime.addConsumer at h
    obtain ⟨b, hb, h⟩ := bind_ok_iff.mp h
    rw [pure_ok_iff] at h
    unfold Calc.addConsumer at hb
    obtain ⟨c', _, hb⟩ := bind_ok_iff.mp hb
    rw [pure_ok_iff] at hb
    subst hb
    subst h
    exact ⟨⟨hn, hv.order, hv.next, hv.calculated, hv.total, hv.pos, hv.rows, hv.cols⟩, rfl, rfl⟩

example := (C20_add_valid recOps recAnytime [1] recAnytime_valid _).1 ⟨fun _ _ _ => .ok 5, 0, rfl⟩

/-- **C20**: a full calculation on a fresh calculator never runs past the list of diagonals (no `IndexError`), does the whole
list, and each consumer receives exactly the diagonals of the list (in a self-join each followed by its mirror image), with
the rows of its own generators. -/
theorem C20_full_run (ops : Ops G C K) (needed : List Nat) (st st' : Anytime G C K) (hv : st.Valid needed) (h0 : st.next = 0)
    (hids : ∀ c ∈ st.base.cons, ∀ id ∈ c.2, id < st.base.gens.length) :
    st.calculateDiagonals ops needed (fun _ => false) (.float (.fin 1)) = .ok st' ↔
      ∃ R : Nat → Int → List (Fl K),
        AllAsked ops.calcDiagonal (fun d => (diagLength st.base.numQuery st.base.numSeries d).toNat) needed R st.order st.base.gens st'.base.gens ∧
        AllFed ops (fun ids => st.order.flatMap fun d =>
          if st.base.selfJoin then [.diagonal d (ids.map fun id => R id d), .diagonal (-d) (ids.map fun id => R id d)]
          else [.diagonal d (ids.map fun id => R id d)]) st.base.cons st'.base.cons ∧
        st' = { st with base := { st.base with gens := st'.base.gens, cons := st'.base.cons }, calculated := st.total, next := st.order.length } := by
  have htot : 0 ≤ st.total := by rw [hv.total]; exact lens_nonneg _ _
  rw [calculateDiagonals_iff ops needed _ _ st.total st st' hv (C19_one _ _ htot le_rfl).1]
  have hcalc : st.calculated = 0 := by rw [hv.calculated, h0]; simp [lens]
  rw [hcalc, h0, List.drop_zero]
  have hcount : diagCount (fun _ => false) st.total (st.order.map (diagLength st.base.numQuery st.base.numSeries)) 0 0 = some st.order.length := by
    have hgen : ∀ (ls : List Int) (c : Int) (n : Nat), (∀ l ∈ ls, 0 < l) → diagCount (fun _ => false) (c + ls.sum) ls c n = some ls.length := by
      intro ls
      induction ls with
      | nil => intro c n _; simp [diagCount]
      | cons l ls ih =>
        intro c n hpos
        have hl := hpos l List.mem_cons_self
        have hs : 0 ≤ ls.sum := sum_nonneg' _ (fun x hx => (hpos x (List.mem_cons_of_mem _ hx)).le)
        simp only [diagCount, List.sum_cons]
        rw [if_pos ⟨by omega, trivial⟩, show c + (l + ls.sum) = c + l + ls.sum by ring,
          ih _ _ (fun x hx => hpos x (List.mem_cons_of_mem _ hx))]
        simp
    have := hgen (st.order.map (diagLength st.base.numQuery st.base.numSeries)) 0 0 (by
      intro l hl
      obtain ⟨d, hd, rfl⟩ := List.mem_map.mp hl
      exact hv.pos d hd)
    rw [List.length_map, zero_add] at this
    rw [hv.total]
    exact this
  rw [hcount]
  simp only [Option.some.injEq, exists_eq_left', List.take_length]
  unfold DiagsDone
  have hnd : st.order.Nodup := by
    rw [hv.order.nodup_iff]
    unfold Anytime.diagonals
    split <;>
    · apply List.Nodup.map _ List.nodup_range
      intro x y hxy
      simp only at hxy
      omega
  rw [DiagRounds, RoundsRel_iff ops _ _ needed _ _ hnd _ _ hv.covers (by
    intro id hid
    obtain ⟨c, h1, h2⟩ := (hv.needed.mem id).mp hid
    exact hids c h1 id h2)]
  rw [hcalc, h0, zero_add, zero_add, ← hv.total]
  have hev : ∀ R : Nat → Int → List (Fl K), (fun ids : List Nat => st.order.flatMap fun x => diagEvs st.base.selfJoin x (ids.map fun id => R id x)) =
      (fun ids => st.order.flatMap fun d =>
          if st.base.selfJoin then [.diagonal d (ids.map fun id => R id d), .diagonal (-d) (ids.map fun id => R id d)]
          else [.diagonal d (ids.map fun id => R id d)]) := by
    intro R
    funext ids
    congr 1
    funext d
    unfold diagEvs
    split <;> rfl
  simp only [hev]
  constructor
  · rintro ⟨⟨R, h1, h2⟩, h3⟩; exact ⟨R, h1, h2, h3⟩
  · rintro ⟨R, h1, h2, h3⟩; exact ⟨⟨R, h1, h2⟩, h3⟩

example := fun st' => C20_full_run recOps [1] recAnytime st' recAnytime_valid rfl (by decide)

theorem mem_allCells (h w : Nat) (i j : Int) : (i, j) ∈ allCells h w ↔ 0 ≤ i ∧ i < h ∧ 0 ≤ j ∧ j < w := by
  unfold allCells
  simp only [List.mem_flatMap, List.mem_map, List.mem_range, Prod.mk.injEq]
  constructor
  · rintro ⟨a, ha, b, hb, rfl, rfl⟩; omega
  · rintro ⟨h1, h2, h3, h4⟩; exact ⟨i.toNat, by omega, j.toNat, by omega, by omega, by omega⟩

theorem allCells_nodup (h w : Nat) : (allCells h w).Nodup := by
  unfold allCells
  rw [List.nodup_flatMap]
  constructor
  · intro i _
    apply List.Nodup.map _ List.nodup_range
    intro a b hab
    simpa using hab
  · apply List.Pairwise.imp _ List.pairwise_lt_range
    intro a b hab
    simp only [Function.onFun, List.disjoint_left, List.mem_map]
    rintro x ⟨_, _, rfl⟩ ⟨_, _, h⟩
    simp only [Prod.mk.injEq] at h
    omega

theorem diagCells_flatMap_nodup (h w : Nat) (ds : List Int) (hnd : ds.Nodup) : (ds.flatMap (diagCells h w)).Nodup := by
  rw [List.nodup_flatMap]
  refine ⟨fun d _ => (allCells_nodup h w).filter _, ?_⟩
  apply List.Pairwise.imp _ hnd
  intro a b hab
  simp only [Function.onFun, List.disjoint_left, diagCells, List.mem_filter, decide_eq_true_eq]
  rintro x ⟨_, h1⟩ ⟨_, h2⟩
  exact hab (h1.symm.trans h2)

theorem pyRange_nodup (a b : Int) : (pyRange a b).Nodup := by
  apply List.Nodup.map _ List.nodup_range
  intro x y hxy
  simp only at hxy
  omega

/-- **C20**, no self-join: the diagonals delivered in a full run cover each cell of the matrix exactly once. -/
theorem C20_cells_join (h w : Nat) (st : Anytime G C K) (needed : List Nat) (hv : st.Valid needed) (hs : st.base.selfJoin = false)
    (hh : st.base.numQuery = h) (hw : st.base.numSeries = w) :
    (st.order.flatMap (diagCells h w)).Perm (allCells h w) := by
  rw [List.perm_ext_iff_of_nodup (diagCells_flatMap_nodup h w _ ?_) (allCells_nodup h w)]
  · rintro ⟨i, j⟩
    simp only [List.mem_flatMap, diagCells, List.mem_filter, decide_eq_true_eq]
    constructor
    · rintro ⟨d, _, h1, _⟩; exact h1
    · intro h1
      refine ⟨j - i, ?_, h1, rfl⟩
      rw [hv.order.mem_iff]
      unfold Anytime.diagonals
      rw [hs]
      simp only [Bool.false_eq_true, if_false, mem_pyRange]
      rw [mem_allCells] at h1
      omega
  · rw [hv.order.nodup_iff]
    unfold Anytime.diagonals
    split <;> exact pyRange_nodup _ _

example : ([2, 0, -1, 1].flatMap (diagCells 2 3)).Perm (allCells 2 3) := C20_cells_join 2 3 recJoin [1] recJoin_valid rfl rfl rfl

/-- **C20** (partial), self-join with `trivial_match_buffer ≥ 0`: the diagonals delivered in a full run cover exactly the cells more than
the buffer away from the main diagonal, each exactly once. Missing: buffer -1, for which it is false, see
`C20_main_diagonal_twice`. -/
theorem C20_cells_self_join_partial (n : Nat) (st : Anytime G C K) (needed : List Nat) (hv : st.Valid needed)
    (hs : st.base.selfJoin = true) (hw : st.base.numSeries = n) (hb : 0 ≤ st.base.buffer) :
    (st.order.flatMap fun d => diagCells n n d ++ diagCells n n (-d)).Perm (farCells n n st.base.buffer) := by
  have hpos : ∀ d ∈ st.order, st.base.buffer + 1 ≤ d := by
    intro d hd
    rw [hv.order.mem_iff] at hd
    unfold Anytime.diagonals at hd
    rw [hs] at hd
    simp only [if_true, mem_pyRange] at hd
    exact hd.1
  have hond : st.order.Nodup := by
    rw [hv.order.nodup_iff]
    unfold Anytime.diagonals
    split <;> exact pyRange_nodup _ _
  unfold farCells
  rw [List.perm_ext_iff_of_nodup ?_ ((allCells_nodup n n).filter _)]
  · rintro ⟨i, j⟩
    simp only [List.mem_flatMap, diagCells, List.mem_append, List.mem_filter, decide_eq_true_eq, lt_abs]
    constructor
    · rintro ⟨d, hd, ⟨h1, h2⟩ | ⟨h1, h2⟩⟩
      · have := hpos d hd; exact ⟨h1, by omega⟩
      · have := hpos d hd; exact ⟨h1, by omega⟩
    · rintro ⟨h1, h2⟩
      have h1' := (mem_allCells n n i j).mp h1
      have hmem : ∀ d, d ∈ st.order ↔ st.base.buffer + 1 ≤ d ∧ d < n := by
        intro d
        rw [hv.order.mem_iff]
        unfold Anytime.diagonals
        rw [hs]
        simp only [if_true, mem_pyRange, hw]
      rcases h2 with h2 | h2
      · exact ⟨j - i, (hmem _).mpr (by omega), Or.inl ⟨h1, rfl⟩⟩
      · exact ⟨-(j - i), (hmem _).mpr (by omega), Or.inr ⟨h1, by ring⟩⟩
  · rw [List.nodup_flatMap]
    constructor
    · intro d hd
      rw [List.nodup_append]
      refine ⟨(allCells_nodup n n).filter _, (allCells_nodup n n).filter _, ?_⟩
      intro a ha b hb' hab
      subst hab
      simp only [diagCells, List.mem_filter, decide_eq_true_eq] at ha hb'
      have := hpos d hd
      omega
    · apply List.Pairwise.imp_of_mem _ hond
      intro a b ha hb' hab
      simp only [Function.onFun, List.disjoint_left, diagCells, List.mem_append, List.mem_filter, decide_eq_true_eq]
      have := hpos a ha
      have := hpos b hb'
      rintro x (⟨_, h1⟩ | ⟨_, h1⟩) (⟨_, h2⟩ | ⟨_, h2⟩)
      · exact hab (h1.symm.trans h2)
      · omega
      · omega
      · omega

example : ([2, 1].flatMap fun d => diagCells 3 3 d ++ diagCells 3 3 (-d)).Perm (farCells 3 3 0) :=
  C20_cells_self_join_partial 3 recAnytime [1] recAnytime_valid rfl rfl (by decide)

/-- **C20** is false for a self-join with `trivial_match_buffer = -1`: in every full run the main diagonal is delivered
twice. -/
theorem C20_main_diagonal_twice (n : Nat) (hn : 0 < n) (st : Anytime G C K) (needed : List Nat) (hv : st.Valid needed)
    (hs : st.base.selfJoin = true) (hw : st.base.numSeries = n) (hb : st.base.buffer = -1) :
    2 ≤ (st.order.flatMap fun d => diagCells n n d ++ diagCells n n (-d)).count ((0 : Int), (0 : Int)) := by
  have h0 : (0 : Int) ∈ st.order := by
    rw [hv.order.mem_iff]
    unfold Anytime.diagonals
    rw [hs]
    simp only [if_true, mem_pyRange, hw, hb]
    omega
  obtain ⟨a, b, hab⟩ := List.append_of_mem h0
  have hc : ((0 : Int), (0 : Int)) ∈ diagCells n n 0 := by
    simp only [diagCells, List.mem_filter, mem_allCells]
    simp; omega
  rw [hab, List.flatMap_append, List.flatMap_cons, neg_zero]
  simp only [List.count_append]
  have := List.count_pos_iff.mpr hc
  omega

/-- Three subsequences and buffer -1. -/
example : ([1, 0, 2].flatMap fun d => diagCells 3 3 d ++ diagCells 3 3 (-d)).count ((0 : Int), (0 : Int)) = 2 := by decide

example := C20_main_diagonal_twice 3 (by decide) { recAnytime with base := { recCalc with buffer := -1 }, order := [1, 0, 2], total := 6 } [1]
  ⟨⟨by decide, by intro id; simp [recCalc]⟩, by show [1, 0, 2].Perm _; decide, by decide, by decide, by decide, by decide, by decide, by decide⟩
  rfl rfl rfl

/-! Concrete case: 3 subsequences, self-join with buffer 0; two diagonals requested one after the other. -/

example : (recAnytime.calculateDiagonals recOps [1] (fun _ => false) (.float (.fin 1))).toOption.map
    (fun s => (s.base.cons.map Prod.fst, s.calculated)) =
    some ([[(2, [[.fin 2]]), (-2, [[.fin 2]]), (1, [[.fin 1, .fin 1]]), (-1, [[.fin 1, .fin 1]])]], 3) := by
  have h := (C19_one recAnytime.total recAnytime.total (by decide) le_rfl).1
  unfold Anytime.calculateDiagonals
  simp only [h]
  rfl
example : (recAnytime.calculateDiagonals recOps [1] (fun _ => false) (.int 1)).toOption.map
    (fun s => (s.base.cons.map Prod.fst, s.calculated)) = some ([[(2, [[.fin 2]]), (-2, [[.fin 2]])]], 1) := by rfl

end Verif
