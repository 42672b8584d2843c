import Verif.Props.BatchContextual
import Verif.Props.RadiusProfile
import Verif.Props.Multidimensional

/-!
# C72: `DistancedThresholdCounter`, `RadiusProfile0` and `RadiusProfile` in a batch calculation of columns
-/

namespace Verif
open Spec
variable {α G C K : Type}

/-- A consumer that is given columns `A c` one after the other; `I n p`: state `p` after column `c` has been given `n c` times. -/
theorem feed_columnList {ops : Ops G C K} (A : Nat → List (Fl K)) (w : Nat) (I : (Nat → Nat) → C → Prop)
    (step : ∀ n p c, I n p → c < w → ∃ p', ops.processColumn p (c : Int) [A c] = .ok p' ∧ I (fun j => if j = c then n j + 1 else n j) p') (cs : List Nat) :
    (∀ c ∈ cs, c < w) → ∀ n p, I n p → ∃ p', feed ops p (cs.map fun c : Nat => CEvent.column (c : Int) [A c]) = .ok p' ∧ I (fun c => n c + cs.count c) p' := by
  induction cs with
  | nil => intro _ n p h; exact ⟨p, rfl, by simpa using h⟩
  | cons c cs ih =>
    intro hw n p h
    obtain ⟨p1, h1, h2⟩ := step n p c h (hw c (by simp))
    obtain ⟨p', h3, h4⟩ := ih (fun c hc => hw c (by simp [hc])) _ p1 h2
    refine ⟨p', ?_, ?_⟩
    · show (do feed ops (← ops.processColumn p (c : Int) [A c]) _) = _
      rw [h1]
      exact h3
    · have : (fun j => (if j = c then n j + 1 else n j) + cs.count j) = fun j => n j + (c :: cs).count j := by
        funext j
        rw [List.count_cons]
        by_cases hj : j = c
        · subst hj; simp; omega
        · have : ¬ c = j := fun h => hj h.symm
          simp [hj, this]
      rwa [this] at h4

/-- The arguments that `RadiusProfile0` and `RadiusProfile` accept. -/
def TrackOk (track : List Int) : Prop := track ≠ [] ∧ ∀ k ∈ track, 0 ≤ k

/-- What a `RadiusProfile0` with track indices `track` shows of the columns `A c`: for the calculated columns the `k`-th smallest distance for every
track index `k` in increasing order (NaN if there are not that many rows), else NaN. -/
def Spec.ShowsKthOf (A : Nat → List (Fl ℝ)) (w : Nat) (column : Nat → Prop) (track : List Int) (p : RP0 ℝ) : Prop :=
  p.w = w ∧ ∃ l : List Int, l.Perm track ∧ l.Pairwise (· ≤ ·) ∧ ∀ (i k c : Nat), l[i]? = some (k : Int) → c < w →
    (column c → k < (A c).length → IsKth (A c) k (p.values i c)) ∧
    ((¬ column c ∨ (A c).length ≤ k) → p.values i c = .nan)

/-- What a `RadiusProfile` with track indices `track` and exclusion `e` shows of the columns `A c`: for a calculated column there is an order `is` of best matches
(finite distances more than `e` rows apart, in order of distance, every finite distance within `e` of a match that is no larger), and the entry of the track index
`k`, in increasing order, is the distance of match number `k`; NaN if there are not that many matches or the column has not been calculated. -/
def Spec.ShowsMatchesOf (A : Nat → List (Fl ℝ)) (w : Nat) (column : Nat → Prop) (track : List Int) (e : Nat) (p : RP ℝ) : Prop :=
  p.w = w ∧ ∃ l : List Int, l.Perm track ∧ l.Pairwise (· ≤ ·) ∧ ∀ c < w, ∃ is : List Nat,
    (∀ i ∈ is, ∃ x, (A c)[i]? = some (.fin x)) ∧
    is.Pairwise (fun (i j : Nat) => (e : Int) < |(i : Int) - j| ∧ ∀ x y, (A c)[i]? = some (.fin x) → (A c)[j]? = some (.fin y) → x ≤ y) ∧
    (∀ (j : Nat) (x : ℝ), (A c)[j]? = some (.fin x) → ∃ i ∈ is, ∃ y, |(i : Int) - j| ≤ e ∧ (A c)[i]? = some (.fin y) ∧ y ≤ x) ∧
    ∀ (i k : Nat), l[i]? = some (k : Int) →
      (column c → ∀ row, is[k]? = some row → (A c)[row]? = some (p.values i c)) ∧
      ((¬ column c ∨ is.length ≤ k) → p.values i c = .nan)

/-- What a `DistancedThresholdCounter` with thresholds `thr` and exclusion `ex` shows of the columns `A c`: every time that a column was calculated, its count for a
threshold (not NaN) grew by the size of a best-first selection among the distances up to the threshold. -/
def Spec.ShowsSelectionsOf (A : Nat → List (Fl ℝ)) (w : Nat) (times : Nat → Nat) (thr : List (Fl ℝ)) (ex : Nat) (p : DTC ℝ) : Prop :=
  p.w = w ∧ p.thresholds.Perm thr ∧ p.thresholds.Pairwise (· ≤ ·) ∧ ∀ (t : Nat) (θ : Fl ℝ), p.thresholds[t]? = some θ → θ ≠ .nan → ∀ c < w,
    ∃ sels : List (List Nat), sels.length = times c ∧ p.counts t c = (sels.map List.length).sum ∧ ∀ S ∈ sels, IsSelection (A c) ex θ S

/-- `RadiusProfile0` fed with columns. -/
theorem RP0.columns_fed (gops : GenOps G ℝ) (A : Nat → List (Fl ℝ)) (h w : Nat) (track : List Int) (htrack : TrackOk track)
    (cs : List Nat) (hcs : ∀ c ∈ cs, c < w) (times : Nat → Nat) (ht : ∀ c, cs.count c = times c) :
    ∃ p0 p', (RP0.ops gops).initialise (RP0.new track) 1 (h : Int) (w : Int) = .ok p0 ∧
      feed (RP0.ops gops) p0 (cs.map fun c : Nat => CEvent.column (c : Int) [A c]) = .ok p' ∧ ShowsKthOf A w (fun c => 0 < times c) track p' := by
  obtain ⟨l, p0, e1, e2, e3, e4, e5, e6, e7⟩ := C48_kth_smallest (K := ℝ) track htrack.1 htrack.2 w
  obtain ⟨p', g1, g2, g3, g4⟩ := feed_columnList (ops := RP0.ops gops) A w
    (fun n p => p.track = l ∧ p.w = w ∧ ∀ (i k c : Nat), l[i]? = some (k : Int) → c < w →
      (0 < n c → k < (A c).length → IsKth (A c) k (p.values i c)) ∧ ((n c = 0 ∨ (A c).length ≤ k) → p.values i c = .nan)) (by
      rintro n p c ⟨h1, h2, h3⟩ hc
      obtain ⟨p', k1, k2, k3, k4, k5⟩ := e7 p h1 h2 c (A c) hc
      refine ⟨p', k1, k2, k3, fun i k j hi hj => ?_⟩
      by_cases hjc : j = c
      · subst hjc
        have := k5 i k hi
        refine ⟨fun _ hk => this.1 hk, fun h' => ?_⟩
        have h' : n j + 1 = 0 ∨ (A j).length ≤ k := by simpa using h'
        exact this.2 (by omega)
      · simp only [hjc, if_false]
        rw [k4 i j hjc]
        exact h3 i k j hi hj) cs hcs (fun _ => 0) p0 ⟨e4, e5, fun i k c hi hc => ⟨by simp, fun _ => e6 i c⟩⟩
  refine ⟨p0, p', e3, g1, g3, l, e1, e2, fun i k c hi hc => ?_⟩
  have := g4 i k c hi hc
  simp only [ht, Nat.zero_add] at this
  exact ⟨this.1, fun h => this.2 (h.imp (fun h => by omega) fun h => h)⟩

/-- `RadiusProfile` fed with columns. -/
theorem RP.columns_fed (gops : GenOps G ℝ) (A : Nat → List (Fl ℝ)) (h w : Nat) (hne : ∀ c, A c ≠ []) (fuel : Nat) (hlen : ∀ c, (A c).length ≤ fuel)
    (track : List Int) (htrack : TrackOk track) (hnd : track.Nodup) (e : Nat)
    (cs : List Nat) (hcs : ∀ c ∈ cs, c < w) (times : Nat → Nat) (ht : ∀ c, cs.count c = times c) :
    ∃ p0 p', (RP.ops fuel gops).initialise (some (RP.new track e)) 1 (h : Int) (w : Int) = .ok p0 ∧
      feed (RP.ops fuel gops) p0 (cs.map fun c : Nat => CEvent.column (c : Int) [A c]) = .ok (some p') ∧ ShowsMatchesOf A w (fun c => 0 < times c) track e p' := by
  obtain ⟨l, p0, e1, e2, e3, e4, e5, e6, e7, e8⟩ := C49_kth_match_partial (K := ℝ) track htrack.1 htrack.2 hnd e w
  obtain ⟨p', g1, p, rfl, g2, g3, g4, g5⟩ := feed_columnList (ops := RP.ops fuel gops) A w
    (fun n o => ∃ p, o = some p ∧ p.track = l ∧ p.exclusion = e ∧ p.w = w ∧ ∀ c < w, ∀ is, lowestValueIdxs fuel (A c) (some (e : Int)) = .ok (some is) →
      ∀ (i k : Nat), l[i]? = some (k : Int) →
      (0 < n c → ∀ row, is[k]? = some row → (A c)[row]? = some (p.values i c)) ∧ ((n c = 0 ∨ is.length ≤ k) → p.values i c = .nan)) (by
      rintro n o c ⟨p, rfl, h1, h2, h3, h4⟩ hc
      obtain ⟨is, p', k1, k2, k3, k4, k5, k6, k7⟩ := e8 p h1 h2 h3 c (A c) fuel hc (hne c) (hlen c)
      refine ⟨some p', k2, p', rfl, k3, k4, k5, fun j hj js hjs i k hi => ?_⟩
      by_cases hjc : j = c
      · subst hjc
        rw [k1] at hjs
        cases hjs
        have := k7 i k hi
        refine ⟨fun _ row hrow => this.1 row hrow, fun h => ?_⟩
        have h : n j + 1 = 0 ∨ is.length ≤ k := by simpa using h
        have h : is.length ≤ k := by omega
        rw [this.2 h]
        exact (h4 j hj is k1 i k hi).2 (.inr h)
      · simp only [hjc, if_false]
        rw [k6 i j hjc]
        exact h4 j hj js hjs i k hi) cs hcs (fun _ => 0) (some p0) ⟨p0, rfl, e4, e5, e6, fun c hc is _ i k hi => ⟨by simp, fun _ => e7 i c⟩⟩
  refine ⟨some p0, p, ?_, g1, g4, l, e1, e2, fun c hc => ?_⟩
  · show (RP.initialise track (some (e : Int)) (w : Int)).map some = _
    rw [e3]
    rfl
  · obtain ⟨is, k1, k2, k3, k4, -⟩ := lowestValueIdxs_spec (A c) (hne c) e fuel (hlen c)
    refine ⟨is, k2, k3.imp ?_, fun j x hj => ?_, fun i k hi => ?_⟩
    · rintro i j ⟨hn, hv⟩
      refine ⟨?_, hv⟩
      unfold Near at hn
      rw [lt_abs]
      omega
    · obtain ⟨i, hi, y, hn, hy⟩ := k4 j x hj
      refine ⟨i, hi, y, ?_, hy⟩
      unfold Near at hn
      rw [abs_le]
      omega
    · have := g5 c hc is k1 i k hi
      simp only [ht, Nat.zero_add] at this
      exact ⟨this.1, fun h => this.2 (h.imp (fun h => by omega) fun h => h)⟩

/-- `DistancedThresholdCounter` fed with columns. -/
theorem DTC.columns_fed (gops : GenOps G ℝ) (A : Nat → List (Fl ℝ)) (h w : Nat) (hclean : ∀ c, Fl.nan ∉ A c) (argsort : List (Fl ℝ) → List Nat)
    (hsort : ∀ l, IsArgsort l (argsort l)) (thr : List (Fl ℝ)) (hthr : thr ≠ []) (ex : Nat)
    (cs : List Nat) (hcs : ∀ c ∈ cs, c < w) (times : Nat → Nat) (ht : ∀ c, cs.count c = times c) :
    ∃ p0 p', (DTC.ops argsort gops).initialise (DTC.new thr ex) 1 (h : Int) (w : Int) = .ok p0 ∧
      feed (DTC.ops argsort gops) p0 (cs.map fun c : Nat => CEvent.column (c : Int) [A c]) = .ok p' ∧ ShowsSelectionsOf A w times thr ex p' := by
  obtain ⟨p', g1, g2, g3, g4, g5⟩ := feed_columnList (ops := DTC.ops argsort gops) A w
    (fun n p => p.thresholds = npSort thr ∧ p.exclusion = ex ∧ p.w = w ∧ ∀ (t : Nat) (θ : Fl ℝ), (npSort thr)[t]? = some θ → θ ≠ .nan → ∀ c < w,
      ∃ sels : List (List Nat), sels.length = n c ∧ p.counts t c = (sels.map List.length).sum ∧ ∀ S ∈ sels, IsSelection (A c) ex θ S) (by
      rintro n p c ⟨h1, h2, h3, h4⟩ hc
      obtain ⟨p', k1, k2, k3, k4, k5, sel, k6⟩ := C47_selection_partial thr hthr ex w p h1 h2 h3 c hc (A c) (hclean c) (argsort (A c)) (hsort _)
      refine ⟨p', k1, k2, k3, k4, fun t θ ht hθ j hj => ?_⟩
      obtain ⟨sels, q1, q2, q3⟩ := h4 t θ ht hθ j hj
      by_cases hjc : j = c
      · subst hjc
        obtain ⟨r1, r2⟩ := k6 t θ ht hθ
        refine ⟨_ :: sels, by simp [q1], ?_, List.forall_mem_cons.mpr ⟨r2, q3⟩⟩
        rw [r1, q2, List.map_cons, List.sum_cons, Nat.add_comm]
      · exact ⟨sels, by simp [hjc, q1], by rw [k5 t j hjc, q2], q3⟩) cs hcs (fun _ => 0) ⟨npSort thr, ex, w, fun _ _ => 0⟩
    ⟨rfl, rfl, rfl, fun t θ _ _ c _ => ⟨[], rfl, rfl, by simp⟩⟩
  refine ⟨⟨npSort thr, ex, w, fun _ _ => 0⟩, p', ?_, g1, g4, ?_, ?_, fun t θ ht' hθ c hc => ?_⟩
  · show DTC.initialise thr (ex : Int) (w : Int) = _
    unfold DTC.initialise
    rw [if_neg (by omega)]
    rfl
  · rw [g2]; exact List.perm_insertionSort _ _
  · rw [g2]; exact List.pairwise_insertionSort _ _
  · obtain ⟨sels, q1, q2⟩ := g5 t θ (by rw [← g2]; exact ht') hθ c hc
    exact ⟨sels, by rw [q1]; simp only [ht, Nat.zero_add], q2⟩

/-- Without calls for diagonals a consumer receives columns only. -/
theorem columns_only (m : Nat) (selfJoin : Bool) (b : Int) (order : List Int) (D : List α → List α → Fl K) (s q : List α) (us : List BOp) :
    (∀ n, BOp.diagonals n ∉ us) → ∀ u : BSt, ∃ cs : List Nat,
      allDeliveries m selfJoin b order D s q u us =
        cs.map (fun c => Delivery.column c ((List.range (q.length + 1 - m)).map fun r => pairValue D m b s q r c)) ∧
      ∀ c, cs.count c = us.countP fun
        | .columns a e => decide (a ≤ c ∧ c < e)
        | .diagonals _ => false := by
  induction us with
  | nil => intro _ u; exact ⟨[], rfl, by simp⟩
  | cons op us ih =>
    intro h u
    obtain ⟨cs, h1, h2⟩ := ih (fun n hn => h n (by simp [hn])) (u.step op)
    cases op with
    | diagonals n => exact absurd (by simp) (h n)
    | columns a e =>
      refine ⟨List.range' a (e - a) ++ cs, ?_, fun c => ?_⟩
      · rw [List.map_append, ← h1, List.range'_eq_map_range, List.map_map]
        rfl
      · rw [List.count_append, h2, List.countP_cons, Nat.add_comm]
        congr 1
        by_cases hc : a ≤ c ∧ c < e
        · rw [List.count_eq_one_of_mem List.nodup_range' (List.mem_range'_1.mpr (by omega))]
          simp [hc]
        · rw [List.count_eq_zero_of_not_mem (by rw [List.mem_range'_1]; omega)]
          simp [hc]

theorem columns_times_pos (us : List BOp) (c : Nat) : (0 < us.countP fun
      | .columns a e => decide (a ≤ c ∧ c < e)
      | .diagonals _ => false) ↔ ∃ a e, .columns a e ∈ us ∧ a ≤ c ∧ c < e := by
  rw [List.countP_pos_iff]
  constructor
  · rintro ⟨op, h1, h2⟩
    cases op with
    | diagonals n => simp at h2
    | columns a e =>
      have h2 : a ≤ c ∧ c < e := by simpa using h2
      exact ⟨a, e, h1, h2⟩
  · rintro ⟨a, e, h1, h2⟩
    exact ⟨_, h1, by simpa using h2⟩

namespace BatchCase

/-- How often column `c` was calculated. -/
def times (B : BatchCase α) (c : Nat) : Nat := B.us.countP fun
  | .columns a e => decide (a ≤ c ∧ c < e)
  | .diagonals _ => false

/-- Column `c` of the matrix of distances of generator `id`, with `+inf` in the trivial match band. -/
noncomputable def columnOf (B : BatchCase α) (id c : Nat) : List (Fl ℝ) := (List.range B.h).map fun r => B.masked id r c

variable {B : BatchCase α}

/-- Without calls for diagonals every consumer receives columns only. -/
theorem Ok.columns_only {idss : List (List Nat)} (hB : B.Ok idss) (hcol : ∀ n, .diagonals n ∉ B.us) {id : Nat} (hid : id < B.kinds.length) :
    ∃ cs : List Nat, B.events [id] = cs.map (fun c : Nat => CEvent.column (c : Int) [B.columnOf id c]) ∧ (∀ c ∈ cs, c < B.w) ∧ ∀ c, cs.count c = B.times c := by
  have hcells := hB.cells hid
  obtain ⟨cs, h1, h2⟩ := Verif.columns_only B.m B.query.isNone B.b B.order (streamDist B.π B.m B.kinds id) B.s B.q B.us hcol BSt.init
  have h1 : B.dels id = _ := h1
  refine ⟨cs, ?_, fun c hc => ?_, h2⟩
  · rw [events_single, h1, List.map_map]
    refine List.map_congr_left fun c hc => ?_
    have := hcells.of _ (by rw [h1]; exact List.mem_map_of_mem hc)
    show CEvent.column (c : Int) [_] = _
    rw [show _ = _ from this]
    rfl
  · have := hcells.valid _ (by rw [h1]; exact List.mem_map_of_mem hc)
    exact this.1

theorem columnOf_ne_nil {idss : List (List Nat)} (hB : B.Ok idss) (id c : Nat) : B.columnOf id c ≠ [] := by
  have := hB.h_pos
  unfold columnOf
  simp
  omega

theorem columnOf_clean (id c : Nat) : Fl.nan ∉ B.columnOf id c := by
  intro h
  obtain ⟨r, -, hr⟩ := List.mem_map.mp h
  exact B.masked_ne_nan id r c hr

theorem times_pos (c : Nat) : 0 < B.times c ↔ B.column c := columns_times_pos B.us c

/-- What a `RadiusProfile0` with track indices `track` shows. -/
def ShowsKth (B : BatchCase α) (track : List Int) (id : Nat) (p : RP0 ℝ) : Prop := ShowsKthOf (B.columnOf id) B.w B.column track p

/-- What a `RadiusProfile` with track indices `track` and exclusion `e` shows. -/
def ShowsMatches (B : BatchCase α) (track : List Int) (e id : Nat) (p : RP ℝ) : Prop := ShowsMatchesOf (B.columnOf id) B.w B.column track e p

/-- What a `DistancedThresholdCounter` with thresholds `thr` and exclusion `ex` shows. -/
def ShowsSelections (B : BatchCase α) (thr : List (Fl ℝ)) (ex id : Nat) (p : DTC ℝ) : Prop := ShowsSelectionsOf (B.columnOf id) B.w B.times thr ex p

theorem columnOf_length (id c : Nat) : (B.columnOf id c).length = B.h := by simp [columnOf]

/-- **C72 (RadiusProfile0).** `RadiusProfile0` consumers of an `AnytimeCalculator` with any channels and generators, after any sequence of (partial, possibly
interrupted) `calculate_columns` calls: no call raises, and the profile shows the `k`-th smallest distances of exactly the calculated columns. Partial for
Euclidean generators (`BatchCase.Ok.good`, see `C66_euclidean_nan`). `calculate_diagonals` is not supported by the class (`C48_invalid`). -/
theorem _root_.Verif.C72_kth_smallest_partial (B : BatchCase α) (xs : List (List Int × Nat)) (hB : B.Ok (xs.map fun x => [x.2])) (hcol : ∀ n, .diagonals n ∉ B.us)
    (htrack : ∀ x ∈ xs, TrackOk x.1) :
    ∃ cons', B.result RP0.ops (xs.map fun x => (RP0.new x.1, [x.2])) = .ok cons' ∧
      List.Forall₂ (fun x c => c.2 = [x.2] ∧ B.ShowsKth x.1 x.2 c.1) xs cons' := by
  refine BatchCase.consumersOf (B := B) RP0.ops (fun _ => rfl) xs (fun x => (RP0.new x.1, [x.2])) hB (fun x p => B.ShowsKth x.1 x.2 p) ?_
  rintro ⟨track, id⟩ hx
  have hlt : id < B.kinds.length := hB.id_lt (List.mem_map.mpr ⟨_, hx, rfl⟩) (by simp)
  obtain ⟨cs, f1, f2, f3⟩ := hB.columns_only hcol hlt
  obtain ⟨p0, p', g1, g2, g3⟩ := RP0.columns_fed (GenKind.ops B.memE B.memZ) (B.columnOf id) B.h B.w track (htrack _ hx) cs f2 B.times f3
  refine ⟨p0, p', g1, by rw [f1]; exact g2, ?_⟩
  simp only [times_pos] at g3
  exact g3

/-- **C72 (RadiusProfile).** The same for `RadiusProfile` consumers with pairwise different track indices: no call raises, every column is processed within as
many steps as there are rows, and the profile shows the `k`-th best non-overlapping matches of exactly the calculated columns. -/
theorem _root_.Verif.C72_kth_match_partial (B : BatchCase α) (fuel : Nat) (hfuel : B.h ≤ fuel) (xs : List ((List Int × Nat) × Nat)) (hB : B.Ok (xs.map fun x => [x.2]))
    (hcol : ∀ n, .diagonals n ∉ B.us) (htrack : ∀ x ∈ xs, TrackOk x.1.1 ∧ x.1.1.Nodup) :
    ∃ cons', B.result (RP.ops fuel) (xs.map fun x => (some (RP.new x.1.1 x.1.2), [x.2])) = .ok cons' ∧
      List.Forall₂ (fun x c => c.2 = [x.2] ∧ ∃ p, c.1 = some p ∧ B.ShowsMatches x.1.1 x.1.2 x.2 p) xs cons' := by
  refine BatchCase.consumersOf (B := B) (RP.ops fuel) (fun _ => rfl) xs (fun x => (some (RP.new x.1.1 x.1.2), [x.2])) hB
    (fun x o => ∃ p, o = some p ∧ B.ShowsMatches x.1.1 x.1.2 x.2 p) ?_
  rintro ⟨⟨track, e⟩, id⟩ hx
  have hlt : id < B.kinds.length := hB.id_lt (List.mem_map.mpr ⟨_, hx, rfl⟩) (by simp)
  obtain ⟨cs, f1, f2, f3⟩ := hB.columns_only hcol hlt
  obtain ⟨p0, p', g1, g2, g3⟩ := RP.columns_fed (GenKind.ops B.memE B.memZ) (B.columnOf id) B.h B.w (columnOf_ne_nil hB id) fuel
    (fun c => by rw [columnOf_length]; exact hfuel) track
    (htrack _ hx).1 (htrack _ hx).2 e cs f2 B.times f3
  refine ⟨p0, some p', g1, by rw [f1]; exact g2, p', rfl, ?_⟩
  simp only [times_pos] at g3
  exact g3

/-- **C72 (DistancedThresholdCounter).** The same for `DistancedThresholdCounter` consumers, whatever `np.argsort` makes of ties: no call raises, and the counts
are those of best-first selections, once for every time that the column was calculated. In particular 0 for columns that were not calculated. -/
theorem _root_.Verif.C72_selection_partial (B : BatchCase α) (argsort : List (Fl ℝ) → List Nat) (hsort : ∀ l, IsArgsort l (argsort l)) (xs : List ((List (Fl ℝ) × Nat) × Nat))
    (hB : B.Ok (xs.map fun x => [x.2])) (hcol : ∀ n, .diagonals n ∉ B.us) (hthr : ∀ x ∈ xs, x.1.1 ≠ []) :
    ∃ cons', B.result (DTC.ops argsort) (xs.map fun x => (DTC.new x.1.1 x.1.2, [x.2])) = .ok cons' ∧
      List.Forall₂ (fun x c => c.2 = [x.2] ∧ B.ShowsSelections x.1.1 x.1.2 x.2 c.1) xs cons' := by
  refine BatchCase.consumersOf (B := B) (DTC.ops argsort) (fun _ => rfl) xs (fun x => (DTC.new x.1.1 x.1.2, [x.2])) hB
    (fun x p => B.ShowsSelections x.1.1 x.1.2 x.2 p) ?_
  rintro ⟨⟨thr, ex⟩, id⟩ hx
  have hlt : id < B.kinds.length := hB.id_lt (List.mem_map.mpr ⟨_, hx, rfl⟩) (by simp)
  obtain ⟨cs, f1, f2, f3⟩ := hB.columns_only hcol hlt
  obtain ⟨p0, p', g1, g2, g3⟩ := DTC.columns_fed (GenKind.ops B.memE B.memZ) (B.columnOf id) B.h B.w (columnOf_clean id) argsort hsort thr (hthr _ hx) ex cs f2 B.times f3
  exact ⟨p0, p', g1, by rw [f1]; exact g2, g3⟩

/-- The calculation of `exBatch` with the columns 1 and 2 before an interrupt, then the columns 2 and 3. -/
noncomputable def _root_.Verif.exColumnBatch : BatchCase (ℤ × ℤ) :=
  { exBatch with
    us := [.columns 1 3, .columns 2 4]
    os := [.columns (fun n => n == 3) (some (.int 1)) (.int 4), .columns (fun _ => false) (some (.int 2)) (.float (.fin 1))] }

theorem _root_.Verif.exColumnBatch_ok {idss : List (List Nat)} (h : ∀ ids ∈ idss, ∀ id ∈ ids, id = 0 ∨ id = 2) (h0 : ∃ ids ∈ idss, 0 ∈ ids) (h2 : ∃ ids ∈ idss, 2 ∈ ids) :
    exColumnBatch.Ok idss where
  memE := (exBatch_ok h h0 h2).memE
  memZ := (exBatch_ok h h0 h2).memZ
  perm := (exBatch_ok h h0 h2).perm
  args := (exBatch_ok h h0 h2).args
  calls := by
    show AreBatchCalls 2 5 5 [3, 2, 1] BSt.init [.columns 1 3, .columns 2 4]
      [.columns (fun n => n == 3) (some (.int 1)) (.int 4), .columns (fun _ => false) (some (.int 2)) (.float (.fin 1))]
    refine ⟨⟨1, 4, .inr ⟨_, rfl, .inl rfl⟩, by decide, .inl rfl, ?_, .inr (by decide)⟩, ⟨2, 4, .inr ⟨_, rfl, .inl rfl⟩, by decide,
      .inr ⟨1, rfl, by norm_num, by norm_num, by norm_num⟩, by simp, .inl (by decide)⟩, trivial⟩
    intro k h1 h2
    have : k = 1 ∨ k = 2 := by omega
    rcases this with rfl | rfl <;> rfl
  good := fun _ => (exBatch_ok h h0 h2).good ⟨1, 2, by decide, by simp [exBatch]⟩

/-- C72 on a concrete calculation: two consumers each, column 2 calculated twice. -/
example : exColumnBatch.times 0 = 0 ∧ exColumnBatch.times 1 = 1 ∧ exColumnBatch.times 2 = 2 ∧ exColumnBatch.times 3 = 1 ∧
    (∃ a b, exColumnBatch.result RP0.ops [(RP0.new [2, 0], [2]), (RP0.new [1], [0])] = .ok [(a, [2]), (b, [0])] ∧ exColumnBatch.ShowsKth [2, 0] 2 a ∧
      exColumnBatch.ShowsKth [1] 0 b) ∧
    (∃ a b, exColumnBatch.result (RP.ops 4) [(some (RP.new [2, 0] 1), [2]), (some (RP.new [1] 0), [0])] = .ok [(some a, [2]), (some b, [0])] ∧
      exColumnBatch.ShowsMatches [2, 0] 1 2 a ∧ exColumnBatch.ShowsMatches [1] 0 0 b) ∧
    ∃ a b, exColumnBatch.result (DTC.ops exArgsort) [(DTC.new [.fin 2, .fin 1] 1, [2]), (DTC.new [.pinf] 0, [0])] = .ok [(a, [2]), (b, [0])] ∧
      exColumnBatch.ShowsSelections [.fin 2, .fin 1] 1 2 a ∧ exColumnBatch.ShowsSelections [.pinf] 0 0 b := by
  have hcol : ∀ n, .diagonals n ∉ exColumnBatch.us := by simp [exColumnBatch]
  refine ⟨by decide, by decide, by decide, by decide, ?_, ?_, ?_⟩
  · obtain ⟨cons', h1, h2⟩ := C72_kth_smallest_partial exColumnBatch [([2, 0], 2), ([1], 0)] (exColumnBatch_ok (by simp) (by simp) (by simp)) hcol (by simp [TrackOk])
    match cons', h1, h2 with
    | [(a, _), (b, _)], h1, .cons ⟨rfl, ha⟩ (.cons ⟨rfl, hb⟩ .nil) => exact ⟨a, b, h1, ha, hb⟩
  · obtain ⟨cons', h1, h2⟩ := C72_kth_match_partial exColumnBatch 4 (by decide) [(([2, 0], 1), 2), (([1], 0), 0)] (exColumnBatch_ok (by simp) (by simp) (by simp)) hcol
      (by simp [TrackOk])
    match cons', h1, h2 with
    | [(_, _), (_, _)], h1, .cons ⟨rfl, a, ea, ha⟩ (.cons ⟨rfl, b, eb, hb⟩ .nil) =>
      dsimp only at ea eb
      subst ea eb
      exact ⟨a, b, h1, ha, hb⟩
  · obtain ⟨cons', h1, h2⟩ := C72_selection_partial exColumnBatch exArgsort exArgsort_ok [(([.fin 2, .fin 1], 1), 2), (([.pinf], 0), 0)]
      (exColumnBatch_ok (by simp) (by simp) (by simp)) hcol (by simp)
    match cons', h1, h2 with
    | [(a, _), (b, _)], h1, .cons ⟨rfl, ha⟩ (.cons ⟨rfl, hb⟩ .nil) => exact ⟨a, b, h1, ha, hb⟩

end BatchCase
end Verif
