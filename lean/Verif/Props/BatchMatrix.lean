import Verif.Lemmas.CaseExamples
import Verif.Props.DistanceMatrix
import Verif.Props.ThresholdCounter

/-!
# C68: `DistanceMatrix` at any moment of a batch calculation
-/

namespace Verif
open Spec
variable {α G K : Type}

theorem DM.feed_eq (gops : GenOps G K) (ds : List (Delivery K)) : ∀ p : DM K, feed (DM.ops gops) p (ds.map Delivery.event) = p.run ds := by
  induction ds with
  | nil => intro p; rfl
  | cons d ds ih =>
    intro p
    have e : (Delivery.event d).apply (DM.ops gops) p = p.deliver d := by cases d <;> rfl
    show (do feed _ (← d.event.apply (DM.ops gops) p) (ds.map Delivery.event)) = (do let p ← p.deliver d; p.run ds)
    rw [e]
    cases p.deliver d with
    | error e => rfl
    | ok p1 => exact ih p1

/-- Was column `c` calculated by a `calculate_columns` call? -/
def BatchCase.column (B : BatchCase α) (c : Nat) : Prop := ∃ a e, .columns a e ∈ B.us ∧ a ≤ c ∧ c < e

/-- The single deliveries. -/
theorem mem_allDeliveries {m : Nat} {selfJoin : Bool} {b : Int} {order : List Int} {D : List α → List α → Fl K} {s q : List α} {us : List BOp} {d : Delivery K} :
    ∀ {u : BSt}, d ∈ allDeliveries m selfJoin b order D s q u us →
      (∃ k ∈ order, d = .diag k (diagValues D m s q k) ∨ (selfJoin = true ∧ d = .diag (-k) (diagValues D m s q k))) ∨
      ∃ c a e, .columns a e ∈ us ∧ a ≤ c ∧ c < e ∧ d = .column c ((List.range (q.length + 1 - m)).map fun r => pairValue D m b s q r c) := by
  induction us with
  | nil => intro u h; cases h
  | cons op us ih =>
    intro u h
    rcases List.mem_append.mp h with h | h
    · cases op with
      | diagonals n =>
        left
        obtain ⟨k, hk, hd⟩ := List.mem_flatMap.mp h
        refine ⟨k, List.mem_of_mem_take (List.mem_of_mem_drop hk), ?_⟩
        rcases List.mem_cons.mp hd with rfl | hd
        · exact .inl rfl
        · right
          cases selfJoin with
          | true => exact ⟨rfl, by simpa using hd⟩
          | false => simp at hd
      | columns a e =>
        right
        obtain ⟨i, hi, rfl⟩ := List.mem_map.mp h
        rw [List.mem_range] at hi
        exact ⟨a + i, a, e, by simp, by omega, by omega, rfl⟩
    · rcases ih h with h | ⟨c, a, e, h1, h2⟩
      · exact .inl h
      · exact .inr ⟨c, a, e, List.mem_cons_of_mem _ h1, h2⟩

theorem allDeliveries_column {m : Nat} {selfJoin : Bool} {b : Int} {order : List Int} {D : List α → List α → Fl K} {s q : List α} {us : List BOp} {a e c : Nat}
    (h : .columns a e ∈ us) (h1 : a ≤ c) (h2 : c < e) : ∀ {u : BSt},
      .column c ((List.range (q.length + 1 - m)).map fun r => pairValue D m b s q r c) ∈ allDeliveries m selfJoin b order D s q u us := by
  induction us with
  | nil => cases h
  | cons op us ih =>
    intro u
    rcases List.mem_cons.mp h with h | h
    · rw [← h]
      refine List.mem_append_left _ (List.mem_map.mpr ⟨c - a, ?_, ?_⟩)
      · rw [List.mem_range]; omega
      · rw [show a + (c - a) = c by omega]
    · exact List.mem_append_right _ (ih h)

theorem covered_column {selfJoin : Bool} {b : Int} {order : List Int} {us : List BOp} {a e r c : Nat} (h : .columns a e ∈ us) (h1 : a ≤ c) (h2 : c < e)
    (h3 : ¬ ((r : Int) - c ≤ b ∧ (c : Int) - r ≤ b)) : ∀ {u : BSt}, u.covered selfJoin b order us r c := by
  induction us with
  | nil => cases h
  | cons op us ih =>
    intro u
    rcases List.mem_cons.mp h with h | h
    · rw [← h]; exact .inl ⟨h1, h2, h3⟩
    · exact .inr (ih h)

/-- What a `DistanceMatrix` shows: the distances delivered, `+inf` in the trivial match band of calculated columns, NaN elsewhere. -/
def BatchCase.ShowsMatrix (B : BatchCase α) (id : Nat) (p : DM ℝ) : Prop :=
  p.h = B.h ∧ p.w = B.w ∧ ∀ r < B.h, ∀ c < B.w,
    (B.done r c → p.m r c = .fin (B.value id r c)) ∧
    (¬ B.done r c → B.column c → p.m r c = .pinf ∧ (r : Int) - c ≤ B.b ∧ (c : Int) - r ≤ B.b) ∧
    (¬ B.done r c → ¬ B.column c → p.m r c = .nan)

/-- A `DistanceMatrix` that receives the calls of the calculation. -/
theorem BatchCase.Any.matrix_fed {B : BatchCase α} {idss : List (List Nat)} (hB : B.Any idss) (gops : GenOps G ℝ) {id : Nat} (hlt : id < B.kinds.length) :
    ∃ p p', DM.initialise 1 (B.h : Int) (B.w : Int) = .ok p ∧ feed (DM.ops gops) p (B.events [id]) = .ok p' ∧ B.ShowsMatrix id p' := by
  have hcells := hB.cells hlt
  obtain ⟨p, p', e1, e2, e3, e4, e5⟩ := C44_distance_matrix B.h B.w (B.dels id) hcells.valid
  refine ⟨p, p', e1, ?_, ?_⟩
  · rw [BatchCase.events_single, DM.feed_eq]; exact e2
  have hns : ∀ d ∈ B.dels id, ∀ n, d ≠ .shiftSeries n ∧ d ≠ .shiftQuery n := by
    intro d hm n
    have := hcells.of d hm
    constructor <;> (rintro rfl; exact this)
  have e := Seen.run_noShift (B.dels id) hns (Seen.init (K := ℝ))
  have q0 : (Seen.init.run (B.dels id)).qs = 0 := by rw [e]; rfl
  have s0 : (Seen.init.run (B.dels id)).ss = 0 := by rw [e]; rfl
  have hmem : ∀ x, x ∈ (Seen.init.run (B.dels id)).cells ↔ ∃ d ∈ B.dels id, x ∈ d.cells 0 0 := by
    intro x
    rw [e]
    simp [Seen.init]
  have hval : ∀ x ∈ (Seen.init.run (B.dels id)).cells, ∃ r c : Nat, x.row = r ∧ x.col = c ∧ x.val = B.masked id r c := by
    intro x hx
    obtain ⟨r, c, -, -, rfl⟩ := (mem_run_cells (B.dels id) hcells.valid hcells.of).1 x hx
    exact ⟨r, c, rfl, rfl, rfl⟩
  refine ⟨e3, e4, fun r hr c hc => ?_⟩
  have hl := e5 r hr c hc
  rw [q0, s0, Nat.add_zero, Nat.add_zero] at hl
  have hcolumn : B.column c → p'.m r c = B.masked id r c := by
    rintro ⟨a, e', h1, h2, h3⟩
    rcases hl with ⟨pre, post, h4, -⟩ | ⟨-, hno⟩
    · obtain ⟨r', c', g1, g2, g3⟩ := hval ⟨r, c, p'.m r c⟩ (by rw [h4]; simp)
      simp only [Int.natCast_inj] at g1 g2
      subst g1 g2
      exact g3
    · exfalso
      have hd := allDeliveries_column (m := B.m) (selfJoin := B.query.isNone) (b := B.b) (order := B.order) (D := streamDist B.π B.m B.kinds id) (s := B.s) (q := B.q)
        (u := BSt.init) h1 h2 h3
      refine hno ⟨r, c, pairValue (streamDist B.π B.m B.kinds id) B.m B.b B.s B.q r c⟩ ((hmem _).mpr ⟨_, hd, List.mem_map.mpr ⟨(pairValue (streamDist B.π B.m B.kinds id) B.m B.b B.s B.q r c, r),
        List.mem_zipIdx_iff_getElem?.mpr ?_, rfl⟩⟩) ⟨rfl, rfl⟩
      have hr' : r < B.q.length + 1 - B.m := hr
      show (List.map _ _)[r]? = some _
      rw [List.getElem?_map, List.getElem?_range hr']
      rfl
  refine ⟨fun hd => ?_, fun hd hcol => ?_, fun hd hcol => ?_⟩
  · obtain ⟨d, h1, x, h2, h3, h4⟩ := hcells.complete r hr c hc hd
    rcases hl with ⟨pre, post, h5, -⟩ | ⟨-, hno⟩
    · obtain ⟨r', c', g1, g2, g3⟩ := hval ⟨r, c, p'.m r c⟩ (by rw [h5]; simp)
      simp only [Int.natCast_inj] at g1 g2
      subst g1 g2
      rw [← hB.masked_done hd]
      exact g3
    · exact absurd ⟨h3, h4⟩ (hno x ((hmem x).mpr ⟨d, h1, h2⟩))
  · have hm := hcolumn hcol
    have : (r : Int) - c ≤ B.b ∧ (c : Int) - r ≤ B.b := by
      by_contra hcon
      apply hd
      obtain ⟨a, e', h1, h2, h3⟩ := hcol
      exact covered_column h1 h2 h3 hcon
    refine ⟨?_, this⟩
    rw [hm]
    unfold BatchCase.masked
    rw [if_pos this]
  · rcases hl with ⟨pre, post, h5, -⟩ | ⟨h5, -⟩
    · exfalso
      obtain ⟨d, h1, h2⟩ := (hmem ⟨r, c, p'.m r c⟩).mp (by rw [h5]; simp)
      rcases mem_allDeliveries h1 with ⟨k, hk, hd'⟩ | ⟨c', a, e', g1, g2, g3, rfl⟩
      · rcases hcells.sound d h1 _ h2 with h6 | h6
        · obtain ⟨v, hv⟩ : ∃ v : List (Fl ℝ), (∃ k', d = .diag k' v) ∧ v = diagValues (streamDist B.π B.m B.kinds id) B.m B.s B.q k := by
            rcases hd' with rfl | ⟨-, rfl⟩ <;> exact ⟨_, ⟨_, rfl⟩, rfl⟩
          obtain ⟨⟨k', rfl⟩, hv⟩ := hv
          obtain ⟨z, hz, hz'⟩ := List.mem_map.mp h2
          have h7 := List.mem_of_getElem? (List.mem_zipIdx_iff_getElem?.mp hz)
          rw [hv] at h7
          obtain ⟨i, -, hi⟩ := List.mem_map.mp h7
          rw [streamDist_value B.π B.m B.kinds id hlt] at hi
          simp only [Cell.mk.injEq] at hz'
          simp only at h6
          rw [h6, ← hi] at hz'
          cases hz'.2.2
        · exact hd h6
      · obtain ⟨z, hz, hz'⟩ := List.mem_map.mp h2
        simp only [Cell.mk.injEq, Int.natCast_inj, Nat.add_zero] at hz'
        exact hcol ⟨a, e', g1, by omega, by omega⟩
    · exact h5

/-- **C68.** `DistanceMatrix` consumers of an `AnytimeCalculator` with any channels and generators, after any sequence of (partial, possibly interrupted)
`calculate_diagonals` and `calculate_columns` calls: no call raises, and at any moment the matrix holds the distances of exactly the pairs calculated so far,
`+inf` in the trivial match band of calculated columns, and NaN everywhere else. Partial for Euclidean generators when columns are calculated
(`BatchCase.Ok.good`): see `C66_euclidean_nan`. -/
theorem C68_distance_matrix_partial (B : BatchCase α) (ids : List Nat) (hB : B.Ok (ids.map fun id => [id])) :
    ∃ cons', B.result DM.ops (ids.map fun id => (DM.new, [id])) = .ok cons' ∧
      List.Forall₂ (fun id c => c.2 = [id] ∧ B.ShowsMatrix id c.1) ids cons' :=
  BatchCase.consumersOf (B := B) DM.ops (fun _ => rfl) ids (fun id => ((DM.new : DM ℝ), [id])) hB (fun id p => B.ShowsMatrix id p)
    fun _ hid => hB.matrix_fed _ (hB.id_lt (List.mem_map_of_mem hid) (by simp))

/-! ### Concrete cases -/

example : ∃ a b, exBatch.result DM.ops [(DM.new, [2]), (DM.new, [0])] = .ok [(a, [2]), (b, [0])] ∧ exBatch.ShowsMatrix 2 a ∧ exBatch.ShowsMatrix 0 b := by
  obtain ⟨cons', h1, h2⟩ := C68_distance_matrix_partial exBatch [2, 0] (exBatch_ok (by simp) (by simp) (by simp))
  cases h2 with
  | @cons _ x _ _ p1 h2 => cases h2 with
    | @cons _ y _ _ p2 h2 => cases h2 with
      | nil =>
        obtain ⟨a, _⟩ := x
        obtain ⟨b, _⟩ := y
        obtain ⟨rfl, p1⟩ := p1
        obtain ⟨rfl, p2⟩ := p2
        exact ⟨a, b, h1, p1, p2⟩

/-- The matrix before the first call, after the first diagonal, after the column, and at the end; squared distances. -/
example : (([0, 1, 2, 3] : List Nat).map fun n => (batchAll (DM.ops (Eucl.genOps zeroMem (fun x : ℚ => x))) List.reverse [(Eucl.prepare zeroMem, 0)]
      [(DM.new, [0])] [0] 2 [[.fin 1, .fin 5, .fin 2, .fin 8, .fin 3]] none (some 0)
      (([.diagonals (fun n => n == 1) (.float (.fin 1)), .columns (fun _ => false) (some (.int 1)) (.int 2), .diagonals (fun _ => false) (.int 100)] :
        List Anytime.Op).take n)).map
        (fun l => l.map fun x => (List.range 4).map fun r => (List.range 4).map (x.1.m r))) =
    [.ok [[[.nan, .nan, .nan, .nan], [.nan, .nan, .nan, .nan], [.nan, .nan, .nan, .nan], [.nan, .nan, .nan, .nan]]],
     .ok [[[.nan, .nan, .nan, .fin 53], [.nan, .nan, .nan, .nan], [.nan, .nan, .nan, .nan], [.fin 53, .nan, .nan, .nan]]],
     .ok [[[.nan, .fin 25, .nan, .fin 53], [.nan, .pinf, .nan, .nan], [.nan, .fin 45, .nan, .nan], [.fin 53, .fin 10, .nan, .nan]]],
     .ok [[[.nan, .fin 25, .fin 10, .fin 53], [.fin 25, .pinf, .fin 45, .fin 10], [.fin 10, .fin 45, .nan, .fin 61], [.fin 53, .fin 10, .fin 61, .nan]]]] := by
  decide +kernel

end Verif
