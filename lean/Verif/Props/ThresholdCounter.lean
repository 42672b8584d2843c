import Verif.Model.ThresholdCounter
import Verif.Props.MatrixProfile
import Verif.Props.Anytime

/-!
# C45, C46: `ThresholdCounter`
-/

namespace Verif
open Spec
variable {K : Type} [LinearOrder K]

/-- The values that count for column `c`: those of the last delivery of the whole column (if any) and everything delivered after it. -/
def Spec.countedFor (c : Nat) (ds : List (Delivery K)) : List (Fl K) :=
  ds.foldl (fun acc d =>
    match d with
    | .column c' vals => if c' = c then vals else acc
    | d => acc ++ ((d.cells 0 0).filter fun x => decide (x.col = (c : Int))).map Cell.val) []

/-- Consumers that are not shifted. -/
def Spec.Delivery.NoShift : Delivery K → Prop
  | .shiftSeries _ => False
  | .shiftQuery _ => False
  | _ => True

omit [LinearOrder K] in
theorem colCells_diag (d : Int) (vals : List (Fl K)) (c : Nat) :
    (((Delivery.diag d vals).cells 0 0).filter fun x => decide (x.col = (c : Int))).map Cell.val =
      if d.toNat ≤ c then (vals[c - d.toNat]?).toList else [] := by
  have h1 := entriesFor_diag d vals 0 0 c (decide (0 ≤ d))
  simp only [Nat.add_zero] at h1
  have h2 : (((Delivery.diag d vals).cells 0 0).filter fun x => decide (x.col = (c : Int))) =
      (((Delivery.diag d vals).cells 0 0).filter fun x => decide (x.col = (c : Int)) && (decide (x.row ≤ x.col) == decide (0 ≤ d))) := by
    apply List.filter_congr
    intro x hx
    obtain ⟨y, -, rfl⟩ := List.mem_map.mp hx
    have : decide ((((-d).toNat + y.2 + 0 : Nat) : Int) ≤ ((d.toNat + y.2 + 0 : Nat) : Int)) = decide (0 ≤ d) := by
      rw [decide_eq_decide]; omega
    simp only [this]
    simp
  rw [h2]
  have h3 := congrArg (List.map Prod.fst) h1
  rw [entriesFor, List.map_map] at h3
  refine Eq.trans (by rfl) (h3.trans ?_)
  simp only [Int.ofNat_zero, Int.add_zero, Int.sub_zero, and_true]
  split
  · cases vals[c - d.toNat]? <;> rfl
  · rfl

namespace TC

/-- One call (the class has no shift methods). -/
def deliver (p : TC K) : Delivery K → Except PyErr (TC K)
  | .diag d vals => p.processDiagonal d [vals]
  | .column c vals => p.processColumn c [vals]
  | _ => .error .attributeError

/-- A sequence of calls. -/
def run (p : TC K) (ds : List (Delivery K)) : Except PyErr (TC K) := ds.foldlM deliver p

/-- The counts are those of the values that count. -/
structure Inv (p : TC K) (thr : List (Fl K)) (w : Nat) (f : Nat → List (Fl K)) : Prop where
  thr_eq : p.thresholds = thr
  w_eq : p.w = w
  counts : ∀ (t : Nat) (θ : Fl K), thr[t]? = some θ → ∀ c < w, p.counts t c = (f c).countP fun v => Fl.leF v θ

theorem deliver_inv {p : TC K} {thr : List (Fl K)} {h w : Nat} {ds : List (Delivery K)} (hp : p.Inv thr w fun c => countedFor c ds)
    (d : Delivery K) (hs : d.NoShift) (hv : d.Valid h w) : ∃ p', p.deliver d = .ok p' ∧ p'.Inv thr w fun c => countedFor c (ds ++ [d]) := by
  cases d with
  | shiftSeries n => exact hs.elim
  | shiftQuery n => exact hs.elim
  | diag d vals =>
    have hc := diagCols_ok d vals.length
    have hlo : pyIdx p.w (diagCols d vals.length).1 = d.toNat := by
      have := hv.2
      rw [hc, hp.w_eq, pyIdx_nonneg _ _ (by omega)]
      simp only [Int.toNat_natCast]
      omega
    have hhi : pyIdx p.w (diagCols d vals.length).2 = d.toNat + vals.length := by
      have := hv.2
      rw [hc, hp.w_eq, pyIdx_nonneg _ _ (by omega)]
      simp only
      omega
    refine ⟨⟨p.thresholds, p.w, fun t j => if d.toNat ≤ j ∧ j < max d.toNat (d.toNat + vals.length) then
        (p.counts t j + leOne vals[if vals.length = 1 then 0 else j - d.toNat]? p.thresholds[t]?) else p.counts t j⟩, ?_, hp.thr_eq, hp.w_eq, ?_⟩
    · simp only [deliver, processDiagonal, show pyGet [vals] 0 = .ok vals from rfl, bind, Except.bind, hlo, hhi]
      rw [if_pos (Or.inl (by omega))]
      rfl
    · intro t θ ht c hcw
      have e : countedFor c (ds ++ [Delivery.diag d vals]) = countedFor c ds ++ if d.toNat ≤ c then (vals[c - d.toNat]?).toList else [] := by
        rw [← colCells_diag]
        simp [countedFor]
      simp only
      rw [e, List.countP_append, ← hp.counts t θ ht c hcw, hp.thr_eq, ht]
      by_cases h1 : d.toNat ≤ c ∧ c < max d.toNat (d.toNat + vals.length)
      · rw [if_pos h1, if_pos h1.1]
        have h2 : (if vals.length = 1 then 0 else c - d.toNat) = c - d.toNat := by
          split <;> omega
        have h3 : c - d.toNat < vals.length := by omega
        rw [h2, List.getElem?_eq_getElem h3]
        simp only [leOne, Option.toList_some, List.countP_cons, List.countP_nil]
        omega
      · rw [if_neg h1]
        split
        · rw [List.getElem?_eq_none (by omega)]
          rfl
        · rfl
  | column c vals =>
    have e4 : wrapIdx p.w (c : Int) = .ok c := by
      have := hv.1
      have hw := hp.w_eq
      unfold wrapIdx
      simp only [show ¬ ((c : Int) < 0) by omega, if_false]
      rw [if_pos (by omega)]
      rfl
    refine ⟨{ p with counts := fun t j => if j = c then (vals.map fun v => leOne (some v) p.thresholds[t]?).sum else p.counts t j }, ?_, hp.thr_eq,
      hp.w_eq, ?_⟩
    · simp only [deliver, processColumn, show pyGet [vals] 0 = .ok vals from rfl, bind, Except.bind, e4]
      rfl
    · intro t θ ht c' hcw
      have e : countedFor c' (ds ++ [Delivery.column c vals]) = if c = c' then vals else countedFor c' ds := by
        simp [countedFor]
      simp only
      rw [e]
      by_cases hcc : c' = c
      · rw [if_pos hcc, if_pos hcc.symm, hp.thr_eq, ht]
        clear hv e hs
        induction vals with
        | nil => rfl
        | cons x xs ih =>
          rw [List.map_cons, List.sum_cons, ih, List.countP_cons]
          simp only [leOne]
          omega
      · rw [if_neg hcc, if_neg (Ne.symm hcc)]
        exact hp.counts t θ ht c' hcw

theorem run_inv {thr : List (Fl K)} {h w : Nat} (ds : List (Delivery K)) (hs : ∀ d ∈ ds, d.NoShift) (hv : ∀ d ∈ ds, d.Valid h w) :
    ∀ (p : TC K) (pre : List (Delivery K)), (p.Inv thr w fun c => countedFor c pre) →
      ∃ p', p.run ds = .ok p' ∧ p'.Inv thr w fun c => countedFor c (pre ++ ds) := by
  induction ds with
  | nil => intro p pre hp; exact ⟨p, rfl, by simpa using hp⟩
  | cons d ds ih =>
    intro p pre hp
    obtain ⟨p1, h1, h2⟩ := deliver_inv hp d (hs d (by simp)) (hv d (by simp))
    obtain ⟨p2, h3, h4⟩ := ih (fun d hd => hs d (by simp [hd])) (fun d hd => hv d (by simp [hd])) p1 _ h2
    refine ⟨p2, ?_, by simpa using h4⟩
    rw [run, List.foldlM_cons, h1]
    exact h3

end TC

/-- **C45.** `ThresholdCounter` after any sequence of (parts of) diagonals and columns: nothing is raised, and `counts[t, c]` is the number of values
`<=` threshold `t` among those that count for column `c`. -/
theorem C45_any_history (thr : List (Fl K)) (h w : Nat) (ds : List (Delivery K)) (hs : ∀ d ∈ ds, d.NoShift) (hv : ∀ d ∈ ds, d.Valid h w) :
    ∃ p p' : TC K, TC.initialise thr w = .ok p ∧ p.run ds = .ok p' ∧
      ∀ (t : Nat) (θ : Fl K), thr[t]? = some θ → ∀ c < w, p'.counts t c = (countedFor c ds).countP fun v => Fl.leF v θ := by
  have h0 : TC.initialise thr w = .ok ⟨thr, w, fun _ _ => 0⟩ := by
    rw [TC.initialise, if_neg (by omega)]
    rfl
  obtain ⟨p', h1, h2⟩ := TC.run_inv ds hs hv ⟨thr, w, fun _ _ => 0⟩ [] ⟨rfl, rfl, fun _ _ _ _ _ => rfl⟩
  exact ⟨_, p', h0, h1, by simpa using h2.counts⟩

example := C45_any_history [.fin 2, .pinf] 3 2 ([.column 1 [.fin 3, .nan, .fin 6], .diag (-1) [.fin 5, .ninf]] : List (Delivery ℚ))
  (by simp [Delivery.NoShift]) (by simp [Delivery.Valid])

omit [LinearOrder K] in
theorem countedFor_diags (c : Nat) (ds : List (Delivery K)) (hd : ∀ d ∈ ds, d.IsDiag) :
    countedFor c ds = ((Seen.init.run ds).cells.filter fun x => decide (x.col = (c : Int))).map Cell.val := by
  have hns : ∀ d ∈ ds, ∀ n, d ≠ .shiftSeries n ∧ d ≠ .shiftQuery n := by
    intro d hm n
    have := hd d hm
    constructor <;> (rintro rfl; exact this)
  rw [Seen.run_noShift ds hns]
  have key : ∀ (ds : List (Delivery K)) (acc : List (Cell K)), (∀ d ∈ ds, d.IsDiag) →
      ds.foldl (fun acc d =>
        match d with
        | .column c' vals => if c' = c then vals else acc
        | d => acc ++ ((d.cells 0 0).filter fun x => decide (x.col = (c : Int))).map Cell.val)
        ((acc.filter fun x => decide (x.col = (c : Int))).map Cell.val) =
      ((acc ++ (ds.map fun d => d.cells 0 0).flatten).filter fun x => decide (x.col = (c : Int))).map Cell.val := by
    intro ds
    induction ds with
    | nil => intro acc _; simp
    | cons d ds ih =>
      intro acc h
      have h1 := h d (by simp)
      cases d with
      | diag d vals =>
        have := ih (acc ++ (Delivery.diag d vals).cells 0 0) fun d hd => h d (by simp [hd])
        rw [List.foldl_cons]
        simp only [List.filter_append, List.map_append] at this ⊢
        rw [this]
        simp
      | column c vals => exact h1.elim
      | shiftSeries n => exact h1.elim
      | shiftQuery n => exact h1.elim
  exact key ds [] hd

/-- **C45, diagonals.** After any sequence of diagonals `counts[t, c]` is the number of delivered values in column `c` that are `<=` threshold `t`. -/
theorem C45_diagonals (thr : List (Fl K)) (h w : Nat) (ds : List (Delivery K)) (hd : ∀ d ∈ ds, d.IsDiag) (hv : ∀ d ∈ ds, d.Valid h w) :
    ∃ p p' : TC K, TC.initialise thr w = .ok p ∧ p.run ds = .ok p' ∧
      ∀ (t : Nat) (θ : Fl K), thr[t]? = some θ → ∀ c < w,
        p'.counts t c = (Seen.init.run ds).cells.countP fun x => decide (x.col = (c : Int)) && Fl.leF x.val θ := by
  obtain ⟨p, p', h1, h2, h3⟩ := C45_any_history thr h w ds (fun d hm => by
    have := hd d hm
    cases d <;> trivial) hv
  refine ⟨p, p', h1, h2, fun t θ ht c hc => ?_⟩
  rw [h3 t θ ht c hc, countedFor_diags c ds hd, List.countP_map, List.countP_filter]
  congr 1
  funext x
  rw [Function.comp_apply, Bool.and_comm]

example := C45_diagonals [.fin 2, .pinf] 3 2 ([.diag 0 [.fin 3, .nan], .diag (-1) [.fin 5, .ninf], .diag 0 [.fin 1, .fin 2]] : List (Delivery ℚ))
  (by simp [Delivery.IsDiag]) (by simp [Delivery.Valid])

omit [LinearOrder K] in
/-- The number of values `<= θ` of a set of diagonals of a matrix, in one column. -/
theorem countedFor_diagsOf (A : Nat → Nat → Fl K) (h w : Nat) (dl : List Int) (c : Nat) (hc : c < w) (P : Fl K → Bool) :
    (countedFor c (diagsOf A h w dl)).countP P =
      dl.countP fun d => decide (0 ≤ (c : Int) - d) && (decide ((c : Int) - d < h) && P (A ((c : Int) - d).toNat c)) := by
  have key : ∀ (dl : List Int) (acc : List (Fl K)),
      ((diagsOf A h w dl).foldl (fun acc d =>
        match d with
        | .column c' vals => if c' = c then vals else acc
        | d => acc ++ ((d.cells 0 0).filter fun x => decide (x.col = (c : Int))).map Cell.val) acc).countP P =
      acc.countP P + dl.countP fun d => decide (0 ≤ (c : Int) - d) && (decide ((c : Int) - d < h) && P (A ((c : Int) - d).toNat c)) := by
    intro dl
    induction dl with
    | nil => intro acc; simp [diagsOf]
    | cons d dl ih =>
      intro acc
      rw [diagsOf, List.map_cons, List.foldl_cons]
      simp only
      have := ih (acc ++ ((Delivery.cells 0 0 (Delivery.diag d ((List.range (min (h - (-d).toNat) (w - d.toNat))).map fun k =>
        A ((-d).toNat + k) (d.toNat + k)))).filter fun x => decide (x.col = (c : Int))).map Cell.val)
      rw [diagsOf] at this
      rw [this, List.countP_append, colCells_diag, List.countP_cons, Nat.add_assoc]
      congr 1
      rw [Nat.add_comm]
      congr 1
      by_cases h1 : 0 ≤ (c : Int) - d
      · rw [if_pos (by omega)]
        by_cases h2 : (c : Int) - d < h
        · rw [List.getElem?_map, List.getElem?_range (by omega)]
          have e1 : (-d).toNat + (c - d.toNat) = ((c : Int) - d).toNat := by omega
          have e2 : d.toNat + (c - d.toNat) = c := by omega
          simp only [Option.map_some, Option.toList_some, List.countP_cons, List.countP_nil, e1, e2, h1, h2, decide_true, Bool.true_and]
          omega
        · rw [List.getElem?_eq_none (by simp; omega)]
          simp [h2]
      · rw [if_neg (by omega), decide_eq_false h1]
        simp
  have := key dl []
  simpa [countedFor] using this

theorem countP_rows (h c : Nat) (dl : List Int) (hnd : dl.Nodup) (Q : Nat → Bool) :
    (dl.countP fun d => decide (0 ≤ (c : Int) - d) && (decide ((c : Int) - d < h) && Q ((c : Int) - d).toNat)) =
      (List.range h).countP fun r : Nat => decide ((c : Int) - r ∈ dl) && Q r := by
  have hp : (dl.filter fun d => decide (0 ≤ (c : Int) - d) && (decide ((c : Int) - d < h) && Q ((c : Int) - d).toNat)).Perm
      (((List.range h).filter fun r : Nat => decide ((c : Int) - r ∈ dl) && Q r).map fun r : Nat => (c : Int) - (r : Int)) := by
    rw [List.perm_ext_iff_of_nodup (hnd.filter _) ((List.nodup_range.filter _).map fun a b hab => by simpa using hab)]
    intro d
    simp only [List.mem_filter, List.mem_map, Bool.and_eq_true, decide_eq_true_eq, List.mem_range]
    constructor
    · rintro ⟨h1, h2, h3, h4⟩
      have e : (c : Int) - (((c : Int) - d).toNat : Int) = d := by omega
      exact ⟨((c : Int) - d).toNat, ⟨by omega, by rw [e]; exact h1, h4⟩, e⟩
    · rintro ⟨r, ⟨h1, h2, h3⟩, rfl⟩
      have e : ((c : Int) - ((c : Int) - (r : Int))).toNat = r := by omega
      exact ⟨h2, by omega, by omega, by rw [e]; exact h3⟩
  rw [List.countP_eq_length_filter, List.countP_eq_length_filter, hp.length_eq, List.length_map]

omit [LinearOrder K] in
theorem diagsOf_valid (A : Nat → Nat → Fl K) (h w : Nat) (dl : List Int) (hdl : ∀ d ∈ dl, -(h : Int) ≤ d ∧ d ≤ w) :
    ∀ d ∈ diagsOf A h w dl, d.Valid h w := by
  intro d hd
  obtain ⟨k, hk, rfl⟩ := List.mem_map.mp hd
  have := hdl k hk
  constructor <;> (simp; omega)

omit [LinearOrder K] in
theorem diagsOf_isDiag (A : Nat → Nat → Fl K) (h w : Nat) (dl : List Int) : ∀ d ∈ diagsOf A h w dl, d.IsDiag ∧ d.NoShift := by
  intro d hd
  obtain ⟨k, hk, rfl⟩ := List.mem_map.mp hd
  exact ⟨trivial, trivial⟩

/-- **C45, distinct diagonals of a matrix.** Whatever their order, `counts[t, c]` is the number of rows of column `c` that lie on a delivered diagonal
and hold a value `<=` threshold `t`. -/
theorem C45_distinct_diagonals (A : Nat → Nat → Fl K) (thr : List (Fl K)) (h w : Nat) (dl : List Int) (hnd : dl.Nodup)
    (hdl : ∀ d ∈ dl, -(h : Int) ≤ d ∧ d ≤ w) :
    ∃ p p' : TC K, TC.initialise thr w = .ok p ∧ p.run (diagsOf A h w dl) = .ok p' ∧
      ∀ (t : Nat) (θ : Fl K), thr[t]? = some θ → ∀ c < w,
        p'.counts t c = (List.range h).countP fun r : Nat => decide ((c : Int) - r ∈ dl) && Fl.leF (A r c) θ := by
  obtain ⟨p, p', h1, h2, h3⟩ := C45_any_history thr h w (diagsOf A h w dl) (fun d hd => (diagsOf_isDiag A h w dl d hd).2) (diagsOf_valid A h w dl hdl)
  refine ⟨p, p', h1, h2, fun t θ ht c hc => ?_⟩
  rw [h3 t θ ht c hc, countedFor_diagsOf A h w dl c hc]
  exact countP_rows h c dl hnd fun r : Nat => Fl.leF (A r c) θ

example := C45_distinct_diagonals (K := ℚ) (fun r c => .fin (r * 5 + c * 3 : ℕ)) [.fin 2, .fin 5] 2 3 [1, -1, 2] (by decide) (by decide)

omit [LinearOrder K] in
theorem countedFor_columnsOf (A : Nat → Nat → Fl K) (h : Nat) (cs : List Nat) (c : Nat) (hc : c ∈ cs) :
    countedFor c (columnsOf A h cs) = (List.range h).map fun r => A r c := by
  have key : ∀ (cs : List Nat) (acc : List (Fl K)), (c ∈ cs ∨ acc = (List.range h).map fun r => A r c) →
      (columnsOf A h cs).foldl (fun acc d =>
        match d with
        | .column c' vals => if c' = c then vals else acc
        | d => acc ++ ((d.cells 0 0).filter fun x => decide (x.col = (c : Int))).map Cell.val) acc = (List.range h).map fun r => A r c := by
    intro cs
    induction cs with
    | nil => intro acc h; simpa [columnsOf] using h
    | cons x xs ih =>
      intro acc hx
      rw [columnsOf, List.map_cons, List.foldl_cons]
      apply ih
      by_cases hxc : x = c
      · right; simp [hxc]
      · simp only [List.mem_cons, Ne.symm hxc, false_or] at hx
        simpa [hxc] using hx
  exact key cs [] (.inl hc)

/-- **C45, columns and diagonals.** All columns in any order (each any number of times) and all diagonals in any order give the same counts: the number
of entries of the column that are `<=` the threshold. -/
theorem C45_columns_eq_diagonals (A : Nat → Nat → Fl K) (thr : List (Fl K)) (h w : Nat) (hh : 0 < h) (cs : List Nat) (hcs : ∀ c, c ∈ cs ↔ c < w)
    (dl : List Int) (hnd : dl.Nodup) (hdl : ∀ d : Int, d ∈ dl ↔ -(h : Int) < d ∧ d < w) :
    ∃ p q q' : TC K, TC.initialise thr w = .ok p ∧ p.run (columnsOf A h cs) = .ok q ∧ p.run (diagsOf A h w dl) = .ok q' ∧
      ∀ (t : Nat) (θ : Fl K), thr[t]? = some θ → ∀ c < w,
        q.counts t c = ((List.range h).countP fun r : Nat => Fl.leF (A r c) θ) ∧ q'.counts t c = q.counts t c := by
  have hvc : ∀ d ∈ columnsOf A h cs, d.Valid h w := by
    intro d hd
    obtain ⟨c, hc, rfl⟩ := List.mem_map.mp hd
    exact ⟨(hcs c).mp hc, by simp; omega, by simp⟩
  obtain ⟨p, q, a1, a2, a3⟩ := C45_any_history thr h w (columnsOf A h cs) (fun d hd => by
    obtain ⟨c, hc, rfl⟩ := List.mem_map.mp hd
    trivial) hvc
  obtain ⟨p', q', b1, b2, b3⟩ := C45_distinct_diagonals A thr h w dl hnd fun d hd => by
    have := (hdl d).mp hd
    omega
  rw [a1] at b1
  cases b1
  refine ⟨p, q, q', a1, a2, b2, fun t θ ht c hc => ?_⟩
  have e : q.counts t c = (List.range h).countP fun r : Nat => Fl.leF (A r c) θ := by
    rw [a3 t θ ht c hc, countedFor_columnsOf A h cs c ((hcs c).mpr hc), List.countP_map]
    rfl
  refine ⟨e, ?_⟩
  rw [e, b3 t θ ht c hc]
  apply List.countP_congr
  intro r hr
  have hr' : r < h := by simpa using hr
  have : (c : Int) - r ∈ dl := (hdl _).mpr (by omega)
  simp [this]

example := C45_columns_eq_diagonals (K := ℚ) (fun r c => .fin (r * 5 + c * 3 : ℕ)) [.fin 2, .fin 5] 2 3 (by omega) [2, 0, 1] (by simp; omega) [1, -1, 2, 0]
  (by decide) (by intro d; simp; omega)

/-- C45 is not vacuous: two thresholds, a 2 × 3 matrix with NaN and infinities, diagonals in some order; and the run itself. -/
example : let A : Nat → Nat → Fl ℚ := fun r c => if r = 1 ∧ c = 1 then .nan else if r = 0 ∧ c = 2 then .ninf else .fin (3 * r + c : Nat)
    (((TC.initialise [.fin 2, .fin 5] 3).bind fun p => p.run (diagsOf A 2 3 [1, -1, 2, 0])).map fun p =>
      (List.range 2).map fun t => (List.range 3).map fun c => p.counts t c) = .ok [[1, 1, 1], [2, 1, 2]] ∧
    [1, -1, 2, 0].Nodup ∧ ∀ d : Int, d ∈ [1, -1, 2, 0] ↔ -((2 : Nat) : Int) < d ∧ d < (3 : Nat) := by
  refine ⟨by decide +kernel, by decide, fun d => ?_⟩
  simp
  omega

/-! ### C46 -/

/-- What a self-join delivers: the values of every diagonal in `order` (none below the main diagonal), once for itself and once for its mirror image. -/
def Spec.selfJoinDeliveries (A : Nat → Nat → Fl K) (n : Nat) (order : List Int) : List (Delivery K) :=
  order.flatMap fun d =>
    [.diag d ((List.range (n - d.toNat)).map fun k => A k (d.toNat + k)), .diag (-d) ((List.range (n - d.toNat)).map fun k => A k (d.toNat + k))]

omit [LinearOrder K] in
theorem selfJoinDeliveries_eq (A : Nat → Nat → Fl K) (n : Nat) (hsym : ∀ r < n, ∀ c < n, A r c = A c r) (order : List Int) (hpos : ∀ d ∈ order, 0 ≤ d) :
    selfJoinDeliveries A n order = diagsOf A n n (order.flatMap fun d => [d, -d]) := by
  rw [selfJoinDeliveries, diagsOf, List.map_flatMap]
  have : ∀ (a b : Int → List (Delivery K)), (∀ d ∈ order, a d = b d) → order.flatMap a = order.flatMap b := by
    intro a b hab
    rw [List.flatMap, List.flatMap, List.map_congr_left hab]
  apply this
  intro d hd
  have h0 := hpos d hd
  obtain ⟨e, rfl⟩ := Int.eq_ofNat_of_zero_le h0
  have e1 : (-(e : Int)).toNat = 0 := by omega
  simp only [List.map_cons, List.map_nil, Int.toNat_natCast, e1, Int.neg_neg, Nat.sub_zero, Nat.zero_add, Nat.min_eq_left (Nat.sub_le n e),
    Nat.min_eq_right (Nat.sub_le n e), List.cons.injEq, Delivery.diag.injEq, true_and, and_true]
  apply List.map_congr_left
  intro k hk
  have : k < n - e := by simpa using hk
  exact hsym _ (by omega) _ (by omega)

theorem mirror_nodup (l : List Int) (hnd : l.Nodup) (hpos : ∀ d ∈ l, 0 < d) : (l.flatMap fun d => [d, -d]).Nodup := by
  rw [List.nodup_flatMap]
  refine ⟨fun d hd => ?_, ?_⟩
  · have := hpos d hd
    simp; omega
  · rw [List.Nodup] at hnd
    refine hnd.imp_of_mem fun {a b} ha hb hab => ?_
    have := hpos a ha
    have := hpos b hb
    intro x hx
    simp at hx
    simp
    omega

section
variable {G C : Type}

/-- **C46 (part).** A full self-join run with `trivial_match_buffer >= 0` on a symmetric matrix: the values it delivers are those of distinct diagonals, so
every cell is delivered at most once, and the counter ends with the number of entries more than the buffer away from the main diagonal that are `<=` the
threshold, exactly what masked columns give. For buffer -1 this is false, see `C46_main_diagonal_counted_twice`. -/
theorem C46_self_join_once_partial (n : Nat) (st : Anytime G C K) (needed : List Nat) (hst : st.Valid needed) (hs : st.base.selfJoin = true)
    (hw : st.base.numSeries = n) (hb : 0 ≤ st.base.buffer) (A : Nat → Nat → Fl K) (hsym : ∀ r < n, ∀ c < n, A r c = A c r)
    (thr : List (Fl K)) :
    ((st.order.flatMap fun d => diagCells n n d ++ diagCells n n (-d))).Nodup ∧
    ∃ p p' : TC K, TC.initialise thr n = .ok p ∧ p.run (selfJoinDeliveries A n st.order) = .ok p' ∧
      ∀ (t : Nat) (θ : Fl K), thr[t]? = some θ → ∀ c < n,
        p'.counts t c = (List.range n).countP fun r : Nat => decide (st.base.buffer < |(c : Int) - r|) && Fl.leF (A r c) θ := by
  have hmem : ∀ d, d ∈ st.order ↔ st.base.buffer + 1 ≤ d ∧ d < n := by
    intro d
    rw [hst.order.mem_iff]
    unfold Anytime.diagonals
    rw [hs, hw]
    simp only [if_true, mem_pyRange]
  have hnd : st.order.Nodup := by
    rw [hst.order.nodup_iff]
    unfold Anytime.diagonals
    split <;> exact pyRange_nodup _ _
  refine ⟨?_, ?_⟩
  · rw [(C20_cells_self_join_partial n st needed hst hs hw hb).nodup_iff]
    exact (allCells_nodup n n).filter _
  obtain ⟨p, p', h1, h2, h3⟩ := C45_distinct_diagonals A thr n n (st.order.flatMap fun d => [d, -d])
    (mirror_nodup _ hnd fun d hd => by have := (hmem d).mp hd; omega) (by
      intro d hd
      obtain ⟨x, hx, hd⟩ := List.mem_flatMap.mp hd
      have := (hmem x).mp hx
      simp at hd
      omega)
  rw [selfJoinDeliveries_eq A n hsym st.order fun d hd => by have := (hmem d).mp hd; omega]
  refine ⟨p, p', h1, h2, fun t θ ht c hc => ?_⟩
  rw [h3 t θ ht c hc]
  apply List.countP_congr
  intro r hr
  have hr' : r < n := by simpa using hr
  have : (c : Int) - r ∈ (st.order.flatMap fun d => [d, -d]) ↔ st.base.buffer < |(c : Int) - r| := by
    simp only [List.mem_flatMap, List.mem_cons, List.not_mem_nil, or_false]
    constructor
    · rintro ⟨x, hx, hd⟩
      have := (hmem x).mp hx
      rw [lt_abs]
      omega
    · intro h
      rw [lt_abs] at h
      rcases h with h | h
      · exact ⟨(c : Int) - r, (hmem _).mpr (by omega), .inl rfl⟩
      · exact ⟨-((c : Int) - r), (hmem _).mpr (by omega), .inr (by omega)⟩
  simp only [this]

/-- **C46 fails for buffer -1**: in every full self-join run the main diagonal is counted twice. -/
theorem C46_main_diagonal_counted_twice (n : Nat) (st : Anytime G C K) (needed : List Nat) (hst : st.Valid needed)
    (hs : st.base.selfJoin = true) (hw : st.base.numSeries = n) (hb : st.base.buffer = -1) (A : Nat → Nat → Fl K)
    (hsym : ∀ r < n, ∀ c < n, A r c = A c r) (thr : List (Fl K)) :
    ∃ p p' : TC K, TC.initialise thr n = .ok p ∧ p.run (selfJoinDeliveries A n st.order) = .ok p' ∧
      ∀ (t : Nat) (θ : Fl K), thr[t]? = some θ → ∀ c < n,
        p'.counts t c = ((List.range n).countP fun r : Nat => Fl.leF (A r c) θ) + if Fl.leF (A c c) θ then 1 else 0 := by
  have hmem : ∀ d, d ∈ st.order ↔ 0 ≤ d ∧ d < n := by
    intro d
    rw [hst.order.mem_iff]
    unfold Anytime.diagonals
    rw [hs, hw, hb]
    simp only [if_true, mem_pyRange]
    omega
  have hnd : st.order.Nodup := by
    rw [hst.order.nodup_iff]
    unfold Anytime.diagonals
    split <;> exact pyRange_nodup _ _
  have hin : ∀ d ∈ st.order.flatMap (fun d => [d, -d]), -(n : Int) ≤ d ∧ d ≤ n := by
    intro d hd
    obtain ⟨x, hx, hd⟩ := List.mem_flatMap.mp hd
    have := (hmem x).mp hx
    simp at hd
    omega
  obtain ⟨p, p', h1, h2, h3⟩ := C45_any_history thr n n (diagsOf A n n (st.order.flatMap fun d => [d, -d])) (fun d hd => (diagsOf_isDiag A n n _ d hd).2)
    (diagsOf_valid A n n _ hin)
  rw [selfJoinDeliveries_eq A n hsym st.order fun d hd => ((hmem d).mp hd).1]
  refine ⟨p, p', h1, h2, fun t θ ht c hc => ?_⟩
  rw [h3 t θ ht c hc, countedFor_diagsOf A n n _ c hc]
  -- one copy of the main diagonal and all distinct diagonals
  have h0 : (0 : Int) ∈ st.order := (hmem 0).mpr (by omega)
  have hperm := (List.perm_cons_erase h0)
  set pos := st.order.erase 0 with hpos
  have hposnd : pos.Nodup := hnd.erase 0
  have hposmem : ∀ d, d ∈ pos ↔ 0 < d ∧ d < n := by
    intro d
    rw [hpos, hnd.mem_erase_iff, hmem]
    omega
  have hperm2 : (st.order.flatMap fun d => [d, -d]).Perm (0 :: 0 :: pos.flatMap fun d => [d, -d]) := hperm.flatMap_right _
  rw [hperm2.countP_eq, List.countP_cons]
  have hnd2 : (0 :: pos.flatMap fun d => [d, -d]).Nodup := by
    rw [List.nodup_cons]
    refine ⟨fun hm => ?_, mirror_nodup _ hposnd fun d hd => ((hposmem d).mp hd).1⟩
    obtain ⟨x, hx, hd⟩ := List.mem_flatMap.mp hm
    have := (hposmem x).mp hx
    simp at hd
    omega
  have h4 := countP_rows n c _ hnd2 fun r : Nat => Fl.leF (A r c) θ
  rw [h4]
  congr 1
  · apply List.countP_congr
    intro r hr
    have hr' : r < n := by simpa using hr
    have : (c : Int) - r ∈ (0 :: pos.flatMap fun d => [d, -d]) := by
      rcases lt_trichotomy (c : Int) r with h | h | h
      · exact List.mem_cons_of_mem _ (List.mem_flatMap.mpr ⟨(r : Int) - c, (hposmem _).mpr (by omega), by simp⟩)
      · rw [h]; simp
      · exact List.mem_cons_of_mem _ (List.mem_flatMap.mpr ⟨(c : Int) - r, (hposmem _).mpr (by omega), by simp⟩)
    simp only [this, decide_true, Bool.true_and]
  · have e1 : (c : Int) < n := by omega
    simp [e1]

/-- The same calculator with `trivial_match_buffer=-1`. -/
def recNoBuffer : Anytime Nat (List (Int × List (List (Fl Int)))) Int :=
  { recAnytime with base := { recCalc with buffer := -1 }, order := [2, 0, 1], total := 6 }

theorem recNoBuffer_valid : recNoBuffer.Valid [1] := by
  refine ⟨⟨by decide, by intro id; simp [recNoBuffer, recCalc]⟩, ?_, by decide, by decide, by decide, by decide, by decide, by decide⟩
  show [2, 0, 1].Perm _
  decide

example := C46_main_diagonal_counted_twice 3 recNoBuffer [1] recNoBuffer_valid rfl rfl rfl
  (fun r c => .fin ((r * c + 2 : Nat) : Int)) (fun r _ c _ => by rw [Nat.mul_comm]) [.fin 4]

end

/-- C46: the concrete self-join of `recAnytime` (3 subsequences, buffer 0). -/
example : ∃ p p' : TC Int, TC.initialise [.fin 4] 3 = .ok p ∧ p.run (selfJoinDeliveries (fun r c => .fin ((r * c + 2 : Nat) : Int)) 3 recAnytime.order) = .ok p' ∧
    p'.counts 0 2 = 2 := by
  obtain ⟨-, p, p', h1, h2, h3⟩ := C46_self_join_once_partial 3 recAnytime [1] recAnytime_valid rfl rfl (by decide)
    (fun r c => .fin ((r * c + 2 : Nat) : Int)) (fun r _ c _ => by rw [Nat.mul_comm]) [.fin 4]
  exact ⟨p, p', h1, h2, (h3 0 (.fin 4) rfl 2 (by omega)).trans (by decide)⟩

end Verif
