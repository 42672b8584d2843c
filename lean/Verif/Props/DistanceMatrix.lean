import Verif.Model.DistanceMatrix
import Verif.Spec.Deliveries
import Verif.Lemmas.Slices
import Verif.Lemmas.Calculator
import Verif.Props.MatrixProfile

/-!
# C44: the `DistanceMatrix` consumer
-/

namespace Verif
open Spec
variable {K : Type}

/-- `v` is the last value delivered for stream position (`i`, `j`), NaN if there is none. -/
def Spec.IsLast (cells : List (Cell K)) (i j : Int) (v : Fl K) : Prop :=
  (∃ pre post, cells = pre ++ ⟨i, j, v⟩ :: post ∧ ∀ x ∈ post, ¬ (x.row = i ∧ x.col = j)) ∨ (v = .nan ∧ ∀ x ∈ cells, ¬ (x.row = i ∧ x.col = j))

theorem Spec.IsLast.unique {cells : List (Cell K)} {i j : Int} {v v' : Fl K} (h : IsLast cells i j v) (h' : IsLast cells i j v') : v = v' := by
  rcases h with ⟨pre, post, rfl, hp⟩ | ⟨rfl, hn⟩
  · rcases h' with ⟨pre', post', e, hp'⟩ | ⟨-, hn'⟩
    · rw [List.append_eq_append_iff] at e
      rcases e with ⟨a, rfl, e⟩ | ⟨a, rfl, e⟩
      · cases a with
        | nil => simp at e; exact e.1
        | cons y ys =>
          simp at e
          exact absurd ⟨rfl, rfl⟩ (hp ⟨i, j, v'⟩ (by rw [e.2]; simp))
      · cases a with
        | nil => simp at e; exact e.1.symm
        | cons y ys =>
          simp at e
          exact absurd ⟨rfl, rfl⟩ (hp' ⟨i, j, v⟩ (by rw [e.2]; simp))
    · exact absurd ⟨rfl, rfl⟩ (hn' ⟨i, j, v⟩ (by simp))
  · rcases h' with ⟨pre', post', rfl, hp'⟩ | ⟨rfl, -⟩
    · exact absurd ⟨rfl, rfl⟩ (hn ⟨i, j, v'⟩ (by simp))
    · rfl

theorem Spec.IsLast.snoc {cells : List (Cell K)} {i j : Int} {v : Fl K} (h : IsLast cells i j v) (x : Cell K) (hx : ¬ (x.row = i ∧ x.col = j)) :
    IsLast (cells ++ [x]) i j v := by
  rcases h with ⟨pre, post, rfl, hp⟩ | ⟨rfl, hn⟩
  · refine .inl ⟨pre, post ++ [x], by simp, fun y hy => ?_⟩
    rcases List.mem_append.mp hy with hy | hy
    · exact hp y hy
    · rw [List.mem_singleton.mp hy]; exact hx
  · refine .inr ⟨rfl, fun y hy => ?_⟩
    rcases List.mem_append.mp hy with hy | hy
    · exact hn y hy
    · rw [List.mem_singleton.mp hy]; exact hx

namespace DM

/-- One call. -/
def deliver (p : DM K) : Delivery K → Except PyErr (DM K)
  | .diag d vals => p.processDiagonal d [vals]
  | .column c vals => p.processColumn c [vals]
  | .shiftSeries n => .ok (p.shiftSeries n)
  | .shiftQuery n => .ok (p.shiftQuery n)

/-- A sequence of calls. -/
def run (p : DM K) (ds : List (Delivery K)) : Except PyErr (DM K) := ds.foldlM deliver p

/-- The stored matrix holds the last delivered values of the current window. -/
structure Inv (p : DM K) (h w : Nat) (t : Seen K) : Prop where
  h_eq : p.h = h
  w_eq : p.w = w
  rows : ∀ x ∈ t.cells, x.row < ((t.qs + h : Nat) : Int)
  cols : ∀ x ∈ t.cells, x.col < ((t.ss + w : Nat) : Int)
  last : ∀ r < h, ∀ c < w, IsLast t.cells ((r + t.qs : Nat) : Int) ((c + t.ss : Nat) : Int) (p.m r c)

theorem setMany_inv {h w ss qs : Nat} (l : List ((Nat × Nat) × Fl K)) (hl : ∀ x ∈ l, x.1.1 < h ∧ x.1.2 < w) :
    ∀ (p : DM K) (cells : List (Cell K)), p.Inv h w ⟨ss, qs, cells⟩ →
    (DM.mk p.h p.w (p.m.setMany l)).Inv h w ⟨ss, qs, cells ++ l.map fun x => ⟨((x.1.1 + qs : Nat) : Int), ((x.1.2 + ss : Nat) : Int), x.2⟩⟩ := by
  induction l with
  | nil => intro p cells hp; simpa [Mat.setMany] using hp
  | cons x xs ih =>
    intro p cells hp
    obtain ⟨hx1, hx2⟩ := hl x (by simp)
    have step : (DM.mk p.h p.w (Mat.set p.m x.1.1 x.1.2 x.2)).Inv h w
        ⟨ss, qs, cells ++ [⟨((x.1.1 + qs : Nat) : Int), ((x.1.2 + ss : Nat) : Int), x.2⟩]⟩ := by
      refine ⟨hp.h_eq, hp.w_eq, ?_, ?_, ?_⟩
      · intro y hy
        rcases List.mem_append.mp hy with hy | hy
        · exact hp.rows y hy
        · rw [List.mem_singleton.mp hy]; simp only; omega
      · intro y hy
        rcases List.mem_append.mp hy with hy | hy
        · exact hp.cols y hy
        · rw [List.mem_singleton.mp hy]; simp only; omega
      · intro r hr c hc
        simp only [Mat.set]
        by_cases he : r = x.1.1 ∧ c = x.1.2
        · rw [if_pos he]
          refine .inl ⟨cells, [], ?_, by simp⟩
          rw [he.1, he.2]
        · rw [if_neg he]
          refine (hp.last r hr c hc).snoc _ ?_
          simp only
          omega
    have := ih (fun y hy => hl y (by simp [hy])) _ _ step
    simpa [Mat.setMany] using this

theorem broadcastTo_ok (n : Nat) (vals : List (Fl K)) (h : vals.length = n) : broadcastTo n vals = .ok vals := by
  unfold broadcastTo
  rw [if_pos h]

theorem diagIndices_take (h w : Nat) (d : Int) (n : Nat) (h1 : (-d).toNat + n ≤ h) (h2 : d.toNat + n ≤ w) :
    (pyTo (diagIndices h w d).1 n).map Int.toNat = (List.range n).map (fun k => (-d).toNat + k) ∧
    (pyTo (diagIndices h w d).2 n).map Int.toNat = (List.range n).map (fun k => d.toNat + k) := by
  rw [pyTo_nat, pyTo_nat]
  have key : ∀ (a b : Int) (m : Nat), 0 ≤ a → n ≤ (b - a).toNat → m = a.toNat →
      ((pyRange a b).take n).map Int.toNat = (List.range n).map (fun k => m + k) := by
    intro a b m ha hb hm
    rw [pyRange, ← List.map_take, List.take_range, Nat.min_eq_left hb, List.map_map]
    apply List.map_congr_left
    intro k hk
    simp only [Function.comp_apply]
    omega
  unfold diagIndices diagLength
  split
  · exact ⟨key _ _ _ (by omega) (by simp; omega) (by omega), key _ _ _ (by omega) (by omega) (by omega)⟩
  · exact ⟨key _ _ _ (by omega) (by omega) (by omega), key _ _ _ (by omega) (by simp; omega) (by omega)⟩

theorem zip_range_zipIdx {α β : Type} (vals : List α) (f : Nat → β) :
    ((List.range vals.length).map f).zip vals = vals.zipIdx.map fun x => (f x.2, x.1) := by
  apply List.ext_getElem?
  intro k
  rw [List.getElem?_map, List.getElem?_zipIdx, List.zip, List.getElem?_zipWith, List.getElem?_map]
  rcases Nat.lt_or_ge k vals.length with hk | hk
  · simp [hk]
  · simp [hk]

theorem shiftSeries_inv {p : DM K} {h w : Nat} {t : Seen K} (hp : p.Inv h w t) (n : Nat) : (p.shiftSeries n).Inv h w { t with ss := t.ss + n } := by
  rcases Nat.eq_zero_or_pos n with rfl | hn
  · simpa [shiftSeries] using hp
  rw [shiftSeries, if_neg (by omega)]
  refine ⟨hp.h_eq, hp.w_eq, hp.rows, fun x hx => ?_, fun r hr c hc => ?_⟩
  · have := hp.cols x hx
    simp only
    omega
  · simp only
    rw [hp.w_eq, pyIdx_neg _ _ hn]
    split
    · rename_i hge
      refine .inr ⟨rfl, fun x hx hxe => ?_⟩
      have := hp.cols x hx
      omega
    · rename_i hlt
      have hr' : rollIdx w (n : Int) c = c + n := by
        have : ((c : Int) + (n : Int)) % (w : Int) = (c : Int) + n := Int.emod_eq_of_lt (by omega) (by omega)
        rw [rollIdx, this]
        omega
      rw [hr']
      have := hp.last r hr (c + n) (by omega)
      rwa [show c + n + t.ss = c + (t.ss + n) by omega] at this

theorem shiftQuery_inv {p : DM K} {h w : Nat} {t : Seen K} (hp : p.Inv h w t) (n : Nat) : (p.shiftQuery n).Inv h w { t with qs := t.qs + n } := by
  rcases Nat.eq_zero_or_pos n with rfl | hn
  · simpa [shiftQuery] using hp
  rw [shiftQuery, if_neg (by omega)]
  refine ⟨hp.h_eq, hp.w_eq, fun x hx => ?_, hp.cols, fun r hr c hc => ?_⟩
  · have := hp.rows x hx
    simp only
    omega
  · simp only
    rw [hp.h_eq, pyIdx_neg _ _ hn]
    split
    · rename_i hge
      refine .inr ⟨rfl, fun x hx hxe => ?_⟩
      have := hp.rows x hx
      omega
    · rename_i hlt
      have hr' : rollIdx h (n : Int) r = r + n := by
        have : ((r : Int) + (n : Int)) % (h : Int) = (r : Int) + n := Int.emod_eq_of_lt (by omega) (by omega)
        rw [rollIdx, this]
        omega
      rw [hr']
      have := hp.last (r + n) (by omega) c hc
      rwa [show r + n + t.qs = r + (t.qs + n) by omega] at this

theorem deliver_inv {p : DM K} {h w : Nat} {t : Seen K} (hp : p.Inv h w t) (d : Delivery K) (hv : d.Valid h w) :
    ∃ p', p.deliver d = .ok p' ∧ p'.Inv h w (t.stepWith Delivery.cells d) := by
  cases d with
  | diag d vals =>
    obtain ⟨e1, e2⟩ := diagIndices_take h w d vals.length hv.1 hv.2
    have hl : ∀ x ∈ vals.zipIdx.map fun x => (((-d).toNat + x.2, d.toNat + x.2), x.1), x.1.1 < h ∧ x.1.2 < w := by
      intro x hx
      obtain ⟨y, hy, rfl⟩ := List.mem_map.mp hx
      have := (List.getElem?_eq_some_iff.mp (List.mem_zipIdx_iff_getElem?.mp hy)).1
      have := hv.1
      have := hv.2
      simp only
      omega
    have hi := setMany_inv _ hl p t.cells hp
    rw [List.map_map] at hi
    refine ⟨_, ?_, hi⟩
    · have e3 := congrArg List.length e1
      simp only [List.length_map, List.length_range] at e3
      simp only [deliver, processDiagonal]
      rw [show pyGet [vals] 0 = .ok vals from rfl]
      show (do
        let vals ← broadcastTo (pyTo (diagIndices p.h p.w d).1 vals.length).length vals
        _) = _
      rw [hp.h_eq, hp.w_eq, broadcastTo_ok _ _ e3.symm]
      show Except.ok _ = Except.ok _
      rw [e1, e2, List.zip_map', zip_range_zipIdx]
  | column c vals =>
    have hl : ∀ x ∈ vals.zipIdx.map fun x => ((x.2, c), x.1), x.1.1 < h ∧ x.1.2 < w := by
      intro x hx
      obtain ⟨y, hy, rfl⟩ := List.mem_map.mp hx
      have := (List.getElem?_eq_some_iff.mp (List.mem_zipIdx_iff_getElem?.mp hy)).1
      have := hv.1
      have := hv.2.2
      simp only
      omega
    have hi := setMany_inv _ hl p t.cells hp
    rw [List.map_map] at hi
    refine ⟨_, ?_, hi⟩
    · have e3 : pyTo (List.range p.h) vals.length = List.range vals.length := by
        rw [pyTo_nat, List.take_range, hp.h_eq, Nat.min_eq_left hv.2.2]
      have e4 : wrapIdx p.w (c : Int) = .ok c := by
        have := hv.1
        have hw := hp.w_eq
        unfold wrapIdx
        simp only [show ¬ ((c : Int) < 0) by omega, if_false]
        rw [if_pos (by omega)]
        rfl
      simp only [deliver, processColumn]
      have e5 := broadcastTo_ok (List.range vals.length).length vals (by simp)
      rw [e4]
      simp only [show pyGet [vals] 0 = .ok vals from rfl, bind, Except.bind, pure, Except.pure]
      rw [e3, e5]
      show Except.ok _ = Except.ok _
      rw [zip_range_zipIdx]
  | shiftSeries n => exact ⟨_, rfl, shiftSeries_inv hp n⟩
  | shiftQuery n => exact ⟨_, rfl, shiftQuery_inv hp n⟩

theorem run_inv {h w : Nat} (ds : List (Delivery K)) (hv : ∀ d ∈ ds, d.Valid h w) : ∀ (p : DM K) (t : Seen K), p.Inv h w t →
    ∃ p', p.run ds = .ok p' ∧ p'.Inv h w (t.run ds) := by
  induction ds with
  | nil => intro p t hp; exact ⟨p, rfl, hp⟩
  | cons d ds ih =>
    intro p t hp
    obtain ⟨p1, h1, h2⟩ := deliver_inv hp d (hv d (by simp))
    obtain ⟨p2, h3, h4⟩ := ih (fun d hd => hv d (by simp [hd])) p1 _ h2
    refine ⟨p2, ?_, h4⟩
    rw [run, List.foldlM_cons, h1]
    exact h3

end DM

/-- **C44.** A `DistanceMatrix` for `h` × `w` subsequences after any sequence of (parts of) diagonals, (parts of) columns and shifts by any
amounts: nothing is raised, and each entry is the last value delivered for the stream position it stands for, NaN if none was. -/
theorem C44_distance_matrix (h w : Nat) (ds : List (Delivery K)) (hv : ∀ d ∈ ds, d.Valid h w) :
    ∃ p p' : DM K, DM.initialise 1 h w = .ok p ∧ p.run ds = .ok p' ∧ p'.h = h ∧ p'.w = w ∧ ∀ r < h, ∀ c < w,
      IsLast (Seen.init.run ds).cells ((r + (Seen.init.run ds).qs : Nat) : Int) ((c + (Seen.init.run ds).ss : Nat) : Int) (p'.m r c) := by
  have h0 : DM.initialise (K := K) 1 h w = .ok ⟨h, w, fun _ _ => .nan⟩ := by
    rw [DM.initialise, if_neg (by simp), if_neg (by omega)]
    rfl
  obtain ⟨p', h1, h2⟩ := DM.run_inv ds hv ⟨h, w, fun _ _ => .nan⟩ Seen.init ⟨rfl, rfl, by simp [Seen.init], by simp [Seen.init], fun r _ c _ =>
    .inr ⟨rfl, by simp [Seen.init]⟩⟩
  exact ⟨_, p', h0, h1, h2.h_eq, h2.w_eq, h2.last⟩

example := C44_distance_matrix 2 3 ([.diag 0 [.fin 1, .fin 2], .column 2 [.pinf, .fin 3], .shiftSeries 1, .column 2 [.fin 7, .nan], .shiftQuery 1] :
    List (Delivery ℚ)) (by simp [Delivery.Valid])

/-- **C44, number of generators.** The matrix is for exactly one generator: other numbers are refused, whatever the sizes. -/
theorem C44_one_generator (dims querySubseq seriesSubseq : Int) :
    DM.initialise (K := K) dims querySubseq seriesSubseq = .error .runtimeError ↔ dims ≠ 1 := by
  unfold DM.initialise
  by_cases h : dims ≠ 1
  · rw [if_pos h]; simp [h]
  · rw [if_neg h]
    split <;> simp [h]

example : DM.initialise (K := ℚ) 2 3 4 = .error .runtimeError := (C44_one_generator 2 3 4).mpr (by decide)

/-- **C44, shifts.** A shift moves the content by exactly the given amount and fills up with NaN, also when it exceeds the matrix. -/
theorem C44_shift (p : DM K) (n : Nat) : ∀ r < p.h, ∀ c < p.w,
    (p.shiftSeries n).m r c = (if c + n < p.w then p.m r (c + n) else .nan) ∧
    (p.shiftQuery n).m r c = (if r + n < p.h then p.m (r + n) c else .nan) := by
  intro r hr c hc
  rcases Nat.eq_zero_or_pos n with rfl | hn
  · simp [DM.shiftSeries, DM.shiftQuery, hr, hc]
  have hn0 : ¬ ((n : Int) = 0) := by omega
  simp only [DM.shiftSeries, DM.shiftQuery, hn0, if_false, pyIdx_neg _ _ hn]
  constructor
  · by_cases h : c + n < p.w
    · have e : ((c : Int) + (n : Int)) % (p.w : Int) = (c : Int) + n := Int.emod_eq_of_lt (by omega) (by omega)
      have e' : rollIdx p.w (n : Int) c = c + n := by rw [rollIdx, e]; omega
      rw [e', if_pos h, if_neg (by omega)]
    · rw [if_neg h, if_pos (by omega)]
  · by_cases h : r + n < p.h
    · have e : ((r : Int) + (n : Int)) % (p.h : Int) = (r : Int) + n := Int.emod_eq_of_lt (by omega) (by omega)
      have e' : rollIdx p.h (n : Int) r = r + n := by rw [rollIdx, e]; omega
      rw [e', if_pos h, if_neg (by omega)]
    · rw [if_neg h, if_pos (by omega)]

/-- **C44, complete calculations.** Delivering every cell of a matrix, by columns, diagonals or a mix, stores the matrix. -/
theorem C44_complete (A : Nat → Nat → Fl K) (h w : Nat) (ds : List (Delivery K)) (hv : ∀ d ∈ ds, d.Valid h w) (ho : ∀ d ∈ ds, d.Of A h)
    (hc : Complete h w ds) : ∃ p p' : DM K, DM.initialise 1 h w = .ok p ∧ p.run ds = .ok p' ∧ ∀ r < h, ∀ c < w, p'.m r c = A r c := by
  obtain ⟨p, p', h1, h2, h3, h4, h5⟩ := C44_distance_matrix h w ds hv
  refine ⟨p, p', h1, h2, fun r hr c hc' => ?_⟩
  have hns : ∀ d ∈ ds, ∀ n, d ≠ .shiftSeries n ∧ d ≠ .shiftQuery n := by
    intro d hm n
    have := ho d hm
    constructor <;> (rintro rfl; exact this)
  have e := Seen.run_noShift ds hns (Seen.init (K := K))
  have hcells := (mem_run_cells ds hv ho).1
  have hl := h5 r hr c hc'
  have e1 : (Seen.init.run ds).qs = 0 := by rw [e]; rfl
  have e2 : (Seen.init.run ds).ss = 0 := by rw [e]; rfl
  rw [e1, e2] at hl
  rcases hl with ⟨pre, post, e3, -⟩ | ⟨-, hno⟩
  · obtain ⟨r', c', -, -, hx⟩ := hcells ⟨((r + 0 : Nat) : Int), ((c + 0 : Nat) : Int), p'.m r c⟩ (by rw [e3]; simp)
    simp only [Cell.mk.injEq, Nat.add_zero, Int.natCast_inj] at hx
    rw [hx.2.2, hx.1, hx.2.1]
  · obtain ⟨x, hx, hx1, hx2⟩ := hc r hr c hc'
    exact absurd ⟨hx1, hx2⟩ (hno x hx)

example := C44_complete (K := ℚ) (fun r c => if r = c then .nan else .fin (r * 5 + c * 3 : ℕ)) 3 2 _ (diagsOf_ok _ 3 2 [0, -2, 1, -1] (by intro d; simp; omega)).1
  (diagsOf_ok _ 3 2 [0, -2, 1, -1] (by intro d; simp; omega)).2.1 (diagsOf_ok _ 3 2 [0, -2, 1, -1] (by intro d; simp; omega)).2.2

/-- C44 on a 2 × 3 matrix: a diagonal, a column with an infinity, a shift of the series, a part of a column and a shift of the query. -/
example : ((DM.initialise (K := ℚ) 1 2 3).bind fun p => (p.run [.diag 0 [.fin 1, .fin 2], .column 2 [.pinf, .fin 3], .shiftSeries 1, .column 2 [.fin 7],
      .shiftQuery 1]).map fun p => (List.range 2).map fun r => (List.range 3).map fun c => p.m r c) =
    .ok [[.fin 2, .fin 3, .nan], [.nan, .nan, .nan]] := by decide +kernel

/-- `C44_shift` by one of a 2 × 3 matrix. -/
example := C44_shift (K := ℚ) ⟨2, 3, fun r c => .fin (10 * r + c : Nat)⟩ 1

end Verif
