import Verif.Props.FilteredRadius
import Verif.Props.BatchCounts
import Verif.Props.Rejected

/-!
# C100: consumers without `shift_series` and `shift_query` in a streaming calculation

As long as the windows do not move such consumers work; the first append that moves a window raises, in the middle of the call.
-/

namespace Verif
open Spec
variable {α G C K : Type}

theorem run_extends (m N : Nat) (M : Option Nat) (us : List (MOp α)) : ∀ u : MSt α, ∃ x y, (u.run m N M us).s = u.s ++ x ∧ (u.run m N M us).q = u.q ++ y := by
  induction us with
  | nil => intro u; exact ⟨[], [], by simp [MSt.run], by simp [MSt.run]⟩
  | cons op us ih =>
    intro u
    obtain ⟨x, y, h1, h2⟩ := ih (u.step m N M op)
    obtain ⟨x', y', h3, h4⟩ : ∃ x y, (u.step m N M op).s = u.s ++ x ∧ (u.step m N M op).q = u.q ++ y := by
      cases op with
      | series v => exact ⟨v, if M.isNone then v else [], rfl, by simp only [MSt.step]; split <;> simp⟩
      | query v => exact ⟨[], v, by simp [MSt.step], rfl⟩
      | columns k => exact ⟨[], [], by simp [MSt.step], by simp [MSt.step]⟩
    refine ⟨x' ++ x, y' ++ y, ?_, ?_⟩
    · show ((u.step m N M op).run m N M us).s = _
      rw [h1, h3, List.append_assoc]
    · show ((u.step m N M op).run m N M us).q = _
      rw [h2, h4, List.append_assoc]

/-- Every column up to `next` has been calculated for its first `hs c` rows. -/
structure Stairs (m : Nat) (u : MSt α) (hs : Nat → Nat) : Prop where
  done : ∀ r c, u.done r c ↔ c < u.next ∧ r < hs c
  fits : ∀ c < u.next, c + m ≤ u.s.length ∧ hs c + m ≤ u.q.length + 1 ∧ 0 < hs c

theorem Stairs.step {m N : Nat} {M : Option Nat} {u : MSt α} {hs : Nat → Nat} (h : Stairs m u hs) (op : MOp α) (hv : u.Valid m M op)
    (hN : (u.step m N M op).s.length ≤ N) (hM : (u.step m N M op).q.length ≤ M.getD N) :
    u.next ≤ (u.step m N M op).next ∧ ∃ hs', Stairs m (u.step m N M op) hs' ∧ (∀ c < u.next, hs' c = hs c) ∧ ∀ (b : Int) (D : List α → List α → Fl K),
      u.deliveries m N M b D op = (List.range' u.next ((u.step m N M op).next - u.next)).map fun c =>
        Delivery.column c ((List.range (hs' c)).map fun r => (u.step m N M op).cell D m b r c) := by
  cases op with
  | series v =>
    have hq : u.q.length ≤ (u.step m N M (.series v)).q.length := by simp only [MSt.step]; split <;> simp
    refine ⟨le_refl _, hs, ⟨h.done, fun c hc => ?_⟩, fun _ _ => rfl, fun b D => ?_⟩
    · have := h.fits c hc
      have e : (u.step m N M (.series v)).s.length = u.s.length + v.length := by simp [MSt.step]
      omega
    · have e : moved N u.s.length v.length = 0 := by
        simp only [MSt.step, List.length_append] at hN
        unfold moved; omega
      simp [MSt.deliveries, e, MSt.step]
  | query v =>
    refine ⟨le_refl _, hs, ⟨h.done, fun c hc => ?_⟩, fun _ _ => rfl, fun b D => ?_⟩
    · have := h.fits c hc
      have e : (u.step m N M (.query v)).q.length = u.q.length + v.length := by simp [MSt.step]
      have e' : (u.step m N M (.query v)).s.length = u.s.length := rfl
      omega
    · have e : moved (M.getD N) u.q.length v.length = 0 := by
        simp only [MSt.step, List.length_append] at hM
        unfold moved; omega
      simp [MSt.deliveries, e, MSt.step]
  | columns k =>
    have hN : u.s.length ≤ N := hN
    have hM : u.q.length ≤ M.getD N := hM
    have e1 : u.s.length - N = 0 := by omega
    have e2 : u.q.length - M.getD N = 0 := by omega
    have e3 : (lastN N u.s).length = u.s.length := by rw [lastN_length]; omega
    have e4 : (lastN (M.getD N) u.q).length = u.q.length := by rw [lastN_length]; omega
    have hv : m ≤ u.s.length → m ≤ u.q.length := hv
    have en : (u.step m N M (.columns k)).next = max u.next (min k.toNat (u.s.length + 1 - m)) := by simp [MSt.step, e1, e3]
    refine ⟨by rw [en]; exact le_max_left _ _, fun c => if c < u.next then hs c else u.q.length + 1 - m, ⟨fun r c => ?_, fun c hc => ?_⟩, fun c hc => by simp [hc], fun b D => ?_⟩
    · rw [en]
      simp only [MSt.step, e1, e2, e3, h.done, Nat.zero_add, Nat.zero_le, true_and, Nat.max_zero]
      split <;> omega
    · rw [en] at hc
      have e5 : (u.step m N M (.columns k)).s.length = u.s.length := rfl
      have e6 : (u.step m N M (.columns k)).q.length = u.q.length := rfl
      rw [e5, e6]
      by_cases hc' : c < u.next
      · simpa [hc'] using h.fits c hc'
      · simp only [hc', if_false]
        omega
    · rw [en]
      simp only [MSt.deliveries, e1, e2, e3, e4, Nat.add_zero, Nat.sub_zero]
      rw [List.range'_eq_map_range, List.map_map, show max u.next (min k.toNat (u.s.length + 1 - m)) - u.next = min k.toNat (u.s.length + 1 - m) - u.next by omega]
      refine List.map_congr_left fun i _ => ?_
      simp only [Function.comp_apply, show ¬ u.next + i < u.next by omega, if_false]
      rfl

/-- If the windows never move then every column is delivered exactly once, with the rows that there were at that moment. -/
theorem Stairs.run {m N : Nat} {M : Option Nat} (us : List (MOp α)) : ∀ {u : MSt α} {hs : Nat → Nat}, Stairs m u hs → u.All m N M (fun u op => u.Valid m M op) us →
    (u.run m N M us).s.length ≤ N → (u.run m N M us).q.length ≤ M.getD N →
    u.next ≤ (u.run m N M us).next ∧ ∃ hs', Stairs m (u.run m N M us) hs' ∧ (∀ c < u.next, hs' c = hs c) ∧ ∀ (b : Int) (D : List α → List α → Fl K),
      MSt.allDeliveries m N M b D u us = (List.range' u.next ((u.run m N M us).next - u.next)).map fun c =>
        Delivery.column c ((List.range (hs' c)).map fun r => (u.run m N M us).cell D m b r c) := by
  induction us with
  | nil =>
    intro u hs h _ _ _
    exact ⟨le_refl _, hs, h, fun _ _ => rfl, fun b D => by simp [MSt.allDeliveries, MSt.run]⟩
  | cons op us ih =>
    intro u hs h hv hN hM
    have erun : u.run m N M (op :: us) = (u.step m N M op).run m N M us := rfl
    rw [erun] at hN hM ⊢
    obtain ⟨x, y, hx, hy⟩ := run_extends m N M us (u.step m N M op)
    have hN1 : (u.step m N M op).s.length ≤ N := by rw [hx, List.length_append] at hN; omega
    have hM1 : (u.step m N M op).q.length ≤ M.getD N := by rw [hy, List.length_append] at hM; omega
    obtain ⟨a1, hs1, a2, a3, a4⟩ := h.step (K := K) op hv.1 hN1 hM1
    obtain ⟨b1, hs2, b2, b3, b4⟩ := ih a2 hv.2 hN hM
    refine ⟨le_trans a1 b1, hs2, b2, fun c hc => by rw [b3 c (by omega), a3 c hc], fun b D => ?_⟩
    rw [MSt.allDeliveries, a4, b4, show ((u.step m N M op).run m N M us).next - u.next =
      ((u.step m N M op).next - u.next) + (((u.step m N M op).run m N M us).next - (u.step m N M op).next) by omega, ← List.range'_append_1, List.map_append,
      show u.next + ((u.step m N M op).next - u.next) = (u.step m N M op).next by omega]
    congr 1
    refine List.map_congr_left fun c hc => ?_
    rw [List.mem_range'_1] at hc
    rw [b3 c (by omega)]
    congr 1
    refine List.map_congr_left fun r hr => ?_
    rw [List.mem_range] at hr
    have := a2.fits c (by omega)
    exact (cell_append m b D _ _ r c x y hx hy this.1 (by omega)).symm

namespace StreamCase

/-- All appended points still fit in the windows. -/
def Still (S : StreamCase α) : Prop := S.last.s.length ≤ S.N ∧ S.last.q.length ≤ S.M.getD S.N

/-- The first row of column `c` whose distance has not been calculated. -/
noncomputable def rows (S : StreamCase α) (c : Nat) : Nat := sInf {r | ¬ S.last.done r c}

/-- The distances of generator `id` in the calculated rows of column `c`, with `+inf` in the trivial match band. -/
noncomputable def columnOf (S : StreamCase α) (id c : Nat) : List (Fl ℝ) := (List.range (S.rows c)).map fun r => S.value id r c

/-- Has column `c` been calculated? -/
def column (S : StreamCase α) (c : Nat) : Prop := c < S.last.next

variable {S : StreamCase α}

/-- The calculated pairs when the windows have not moved: the columns `c < next`, each for the first `rows c` rows. -/
theorem Any.stairs {idss : List (List Nat)} (h : S.Any idss) (hs : S.Still) : (∀ r c, S.last.done r c ↔ r < S.rows c) ∧
    (∀ c, 0 < S.rows c ↔ S.column c) ∧ (∀ c, S.column c → c < S.w ∧ S.rows c ≤ S.h) ∧
    ∀ id, S.events [id] = (List.range S.last.next).map fun c : Nat => CEvent.column (c : Int) [S.columnOf id c] := by
  obtain ⟨-, H, a, -, b⟩ := Stairs.run (K := ℝ) (m := S.m) (N := S.N) (M := S.M) S.us (u := MSt.init) (hs := fun _ => 0)
    ⟨by simp [MSt.init], by simp [MSt.init]⟩ h.valid hs.1 hs.2
  have erows : ∀ c, S.rows c = if c < S.last.next then H c else 0 := by
    intro c
    have e : {r | ¬ S.last.done r c} = Set.Ici (if c < S.last.next then H c else 0) := by
      ext r
      have : S.last.done r c ↔ _ := a.done r c
      rw [Set.mem_setOf_eq, this, Set.mem_Ici]
      show ¬ (c < S.last.next ∧ _) ↔ _
      split <;> omega
    unfold rows
    rw [e, csInf_Ici]
  have pos : ∀ c < S.last.next, _ := a.fits
  refine ⟨fun r c => ?_, fun c => ?_, fun c hc => ?_, fun id => ?_⟩
  · have : S.last.done r c ↔ _ := a.done r c
    rw [this, erows]
    show c < S.last.next ∧ _ ↔ _
    split <;> omega
  · rw [erows]
    unfold column
    by_cases hc : c < S.last.next
    · have := (pos c hc).2.2
      simp only [hc, if_true, iff_true]; exact this
    · simp [hc]
  · have h1 := pos c hc
    have h2 : S.last.s.length ≤ S.N := hs.1
    have h3 : S.last.q.length ≤ S.M.getD S.N := hs.2
    have e1 : (MSt.init.run S.m S.N S.M S.us).s.length = S.last.s.length := rfl
    have e2 : (MSt.init.run S.m S.N S.M S.us).q.length = S.last.q.length := rfl
    have hc' : c < S.last.next := hc
    rw [erows, if_pos hc']
    unfold w StreamCase.h
    omega
  · have hb := b S.b (streamDist S.π S.m S.kinds id)
    have hb : S.dels id = _ := hb
    rw [events_single, hb, List.map_map, show (MSt.init : MSt α).next = 0 from rfl, Nat.sub_zero, ← List.range_eq_range']
    refine List.map_congr_left fun c hc => ?_
    have hc : c < S.last.next := List.mem_range.mp hc
    show CEvent.column (c : Int) [_] = _
    unfold columnOf
    rw [erows, if_pos hc]
    rfl

theorem columnOf_clean {id : Nat} (hid : id < S.kinds.length) (c : Nat) : Fl.nan ∉ S.columnOf id c := by
  intro h
  obtain ⟨r, -, hr⟩ := List.mem_map.mp h
  unfold value MSt.cell at hr
  split at hr
  · cases hr
  · exact streamDist_ne_nan S.π S.m S.kinds id hid _ _ hr

end StreamCase

/-- What a `MatrixProfileLR` shows of the columns `A c`: for the calculated columns the smallest distance of the rows up to `c` (left) and from `c + 1` (right) with
its row, else `+inf` and -1. -/
def Spec.ShowsSidesOf (A : Nat → List (Fl ℝ)) (w : Nat) (column : Nat → Prop) (p : MP ℝ) : Prop :=
  p.left.length = w ∧ p.leftIdx.length = w ∧ p.right.length = w ∧ p.rightIdx.length = w ∧ ∀ c < w,
    (∃ v i, p.left[c]? = some v ∧ p.leftIdx[c]? = some i ∧
      (column c → (∃ r : Nat, i = r ∧ r ≤ c ∧ (A c)[r]? = some v) ∧ ∀ r ≤ c, ∀ x, (A c)[r]? = some x → v ≤ x) ∧ (¬ column c → v = .pinf ∧ i = -1)) ∧
    ∃ v i, p.right[c]? = some v ∧ p.rightIdx[c]? = some i ∧
      (column c ∧ c + 1 < (A c).length → (v = .pinf ∧ i = -1 ∨ ∃ r : Nat, i = r ∧ c < r ∧ (A c)[r]? = some v) ∧ ∀ r, c < r → ∀ x, (A c)[r]? = some x → v ≤ x) ∧
      (¬ (column c ∧ c + 1 < (A c).length) → v = .pinf ∧ i = -1)

/-- What a `ThresholdCounter` shows of the columns `A c`: the number of values up to the threshold in the calculated columns, else 0. -/
def Spec.ShowsCountsOf (A : Nat → List (Fl ℝ)) (w : Nat) (column : Nat → Prop) (thr : List (Fl ℝ)) (p : TC ℝ) : Prop :=
  ∀ (t : Nat) (θ : Fl ℝ), thr[t]? = some θ → ∀ c < w,
    (column c → p.counts t c = (A c).countP fun v => Fl.leF v θ) ∧ (¬ column c → p.counts t c = 0)

theorem mem_column_entries (A : List (Fl ℝ)) (c : Nat) (left : Bool) (v : Fl ℝ) (i : Int) :
    (v, i) ∈ entriesFor ((Delivery.column c A).cells 0 0) c left ↔ ∃ r : Nat, i = r ∧ A[r]? = some v ∧ decide (r ≤ c) = left := by
  rw [mem_entriesFor]
  constructor
  · rintro ⟨h1, h2⟩
    obtain ⟨⟨x, r⟩, h3, h4⟩ := List.mem_map.mp h1
    simp only [Cell.mk.injEq] at h4
    obtain ⟨h5, -, rfl⟩ := h4
    rw [List.mem_zipIdx_iff_getElem?] at h3
    refine ⟨r, by rw [← h5]; simp, h3, ?_⟩
    rw [← h2, ← h5]
    simp
  · rintro ⟨r, rfl, h1, h2⟩
    refine ⟨List.mem_map.mpr ⟨(v, r), by rw [List.mem_zipIdx_iff_getElem?]; exact h1, by simp⟩, ?_⟩
    rw [← h2]
    simp

/-- `MatrixProfileLR` fed with every column once. -/
theorem MP.columns_fed (gops : GenOps G ℝ) (A : Nat → List (Fl ℝ)) (h w n : Nat) (hn : n ≤ w) (hne : ∀ c < n, A c ≠ [] ∧ (A c).length ≤ h) (hclean : ∀ c, Fl.nan ∉ A c) :
    ∃ p0 p', (MP.ops gops).initialise MP.new 1 (h : Int) (w : Int) = .ok p0 ∧
      feed (MP.ops gops) p0 ((List.range n).map fun c : Nat => CEvent.column (c : Int) [A c]) = .ok p' ∧ ShowsSidesOf A w (fun c => c < n) p' := by
  obtain ⟨p0, e1, e2⟩ := MP.initialise_rep (K := ℝ) h w
  have key : ∀ k ≤ n, ∃ p' l r, feed (MP.ops gops) p0 ((List.range k).map fun c : Nat => CEvent.column (c : Int) [A c]) = .ok p' ∧ p'.Rep h w l r ∧
      ∀ c < w, (c < k → IsMin (entriesFor ((Delivery.column c (A c)).cells 0 0) c true) (l c).1 (l c).2 ∧ l c ∈ entriesFor ((Delivery.column c (A c)).cells 0 0) c true ∧
        ((A c).length ≤ c + 1 → r c = (.pinf, -1)) ∧
        (c + 1 < (A c).length → IsMin (entriesFor ((Delivery.column c (A c)).cells 0 0) c false) (r c).1 (r c).2)) ∧
        (k ≤ c → l c = (.pinf, -1) ∧ r c = (.pinf, -1)) := by
    intro k
    induction k with
    | zero => intro _; exact ⟨p0, _, _, rfl, e2, fun c _ => ⟨by simp, fun _ => ⟨rfl, rfl⟩⟩⟩
    | succ k ih =>
      intro hk
      obtain ⟨p1, l, r, h1, h2, h3⟩ := ih (by omega)
      obtain ⟨p2, l', r', g1, g2, g3, g4, g5, g6, g7⟩ := MP.processColumn_rep h2 k (A k) ⟨by omega, (hne k (by omega)).1, (hne k (by omega)).2⟩ (hclean k)
      refine ⟨p2, l', r', ?_, g2, fun c hc => ?_⟩
      · rw [List.range_succ, List.map_append, feed_append, h1]
        show (do feed (MP.ops gops) (← MP.processColumn p1 (k : Int) [A k]) []) = _
        rw [g1]
        rfl
      · by_cases hck : c = k
        · subst hck
          refine ⟨fun _ => ⟨g4, g5, fun h => ?_, g7⟩, fun h => by omega⟩
          rw [g6 h]
          exact ((h3 c hc).2 (le_refl _)).2
        · rw [(g3 c hck).1, (g3 c hck).2]
          exact ⟨fun h => (h3 c hc).1 (by omega), fun h => (h3 c hc).2 (by omega)⟩
  obtain ⟨p', l, r, h1, h2, h3⟩ := key n (le_refl _)
  have gl := fun c hc => Holds.get h2.left (c := c) hc
  have gr := fun c hc => Holds.get h2.right (c := c) hc
  refine ⟨p0, p', e1, h1, h2.left.len.1, h2.left.len.2, h2.right.len.1, h2.right.len.2, fun c hc =>
    ⟨⟨(l c).1, (l c).2, (gl c hc).1, (gl c hc).2, fun hcn => ?_, fun hcn => ?_⟩, (r c).1, (r c).2, (gr c hc).1, (gr c hc).2, fun hcn => ?_, fun hcn => ?_⟩⟩
  · obtain ⟨k1, k2, -, -⟩ := (h3 c hc).1 hcn
    obtain ⟨j, j1, j2, j3⟩ := (mem_column_entries (A c) c true _ _).mp k2
    refine ⟨⟨j, j1, by simpa using j3, j2⟩, fun j hj x hx => k1.lower (x, (j : Int)) ((mem_column_entries _ _ _ _ _).mpr ⟨j, rfl, hx, by simpa using hj⟩)⟩
  · rw [((h3 c hc).2 (by omega)).1]; exact ⟨rfl, rfl⟩
  · have k1 := ((h3 c hc).1 hcn.1).2.2.2 hcn.2
    refine ⟨k1.attained.imp_right fun k2 => ?_, fun j hj x hx => k1.lower (x, (j : Int)) ((mem_column_entries _ _ _ _ _).mpr ⟨j, rfl, hx, by simpa using hj⟩)⟩
    obtain ⟨j, j1, j2, j3⟩ := (mem_column_entries (A c) c false _ _).mp k2
    exact ⟨j, j1, by simpa using j3, j2⟩
  · by_cases hcn' : c < n
    · rw [((h3 c hc).1 hcn').2.2.1 (by omega)]; exact ⟨rfl, rfl⟩
    · rw [((h3 c hc).2 (by omega)).2]; exact ⟨rfl, rfl⟩

theorem countedFor_once (A : Nat → List (Fl K)) (n c : Nat) [LinearOrder K] :
    countedFor c ((List.range n).map fun c => Delivery.column c (A c)) = if c < n then A c else [] := by
  induction n with
  | zero => rfl
  | succ n ih =>
    rw [List.range_succ, List.map_append]
    unfold countedFor at ih ⊢
    rw [List.foldl_append, ih]
    simp only [List.map_cons, List.map_nil, List.foldl_cons, List.foldl_nil]
    by_cases h : n = c
    · subst h; simp
    · rw [if_neg h]
      by_cases h' : c < n
      · rw [if_pos h', if_pos (by omega)]
      · rw [if_neg h', if_neg (by omega)]

namespace StreamCase
variable {S : StreamCase α}

/-- What there is to know about the columns when the windows have not moved. -/
theorem Any.column_facts {idss : List (List Nat)} (h : S.Any idss) (hs : S.Still) {id : Nat} (hid : id < S.kinds.length) :
    S.last.next ≤ S.w ∧ (∀ c < S.last.next, S.columnOf id c ≠ [] ∧ (S.columnOf id c).length ≤ S.h) ∧ (∀ c, ¬ S.column c → S.columnOf id c = []) ∧
    ∀ c, Fl.nan ∉ S.columnOf id c := by
  obtain ⟨-, h2, h3, -⟩ := h.stairs hs
  refine ⟨?_, fun c hc => ⟨?_, ?_⟩, fun c hc => ?_, columnOf_clean hid⟩
  · by_contra hlt
    have := (h3 (S.last.next - 1) (show _ < S.last.next by omega)).1
    omega
  · have := (h2 c).mpr hc
    unfold columnOf
    simp
    omega
  · have := (h3 c hc).2
    simpa [columnOf] using this
  · have : S.rows c = 0 := by
      by_contra h0
      exact hc ((h2 c).mp (by omega))
    simp [columnOf, this]

/-- **C100 (MatrixProfileLR)** (partial). `MatrixProfileLR` consumers of a `StreamingCalculator` with any channels and generators, as long as all appended points fit
in the windows: no call raises, and for every calculated column the profile shows the smallest distance on or above and below the main diagonal among the rows that
the query had when the column was calculated. Missing: the first append that moves a window raises (`C100_raises`). Partial for Euclidean generators (`Ok.good`). -/
theorem _root_.Verif.C100_matrix_profile_partial (S : StreamCase α) (xs : List Nat) (hS : S.Ok (xs.map fun x => [x])) (hs : S.Still) :
    ∃ cons', S.result MP.ops (xs.map fun x => (MP.new, [x])) = .ok cons' ∧
      List.Forall₂ (fun x c => c.2 = [x] ∧ ShowsSidesOf (S.columnOf x) S.w S.column c.1) xs cons' := by
  refine StreamCase.consumersOf (S := S) MP.ops (fun _ => rfl) xs (fun x => (MP.new, [x])) hS (fun x p => ShowsSidesOf (S.columnOf x) S.w S.column p) ?_
  intro id hx
  have hlt : id < S.kinds.length := hS.id_lt (List.mem_map.mpr ⟨_, hx, rfl⟩) (by simp)
  obtain ⟨f1, f2, -, f4⟩ := hS.column_facts hs hlt
  obtain ⟨p0, p', g1, g2, g3⟩ := MP.columns_fed (GenKind.ops S.memE S.memZ) (S.columnOf id) S.h S.w S.last.next f1 f2 f4
  exact ⟨p0, p', g1, by rw [(hS.stairs hs).2.2.2 id]; exact g2, g3⟩

/-- **C100 (ThresholdCounter)** (partial): the counts are those of the rows that the query had when the column was calculated. -/
theorem _root_.Verif.C100_counts_partial (S : StreamCase α) (xs : List (List (Fl ℝ) × Nat)) (hS : S.Ok (xs.map fun x => [x.2])) (hs : S.Still) :
    ∃ cons', S.result TC.ops (xs.map fun x => (TC.new x.1, [x.2])) = .ok cons' ∧
      List.Forall₂ (fun x c => c.2 = [x.2] ∧ ShowsCountsOf (S.columnOf x.2) S.w S.column x.1 c.1) xs cons' := by
  refine StreamCase.consumersOf (S := S) TC.ops (fun _ => rfl) xs (fun x => (TC.new x.1, [x.2])) hS (fun x p => ShowsCountsOf (S.columnOf x.2) S.w S.column x.1 p) ?_
  rintro ⟨thr, id⟩ hx
  have hlt : id < S.kinds.length := hS.id_lt (List.mem_map.mpr ⟨_, hx, rfl⟩) (by simp)
  obtain ⟨f1, f2, f3, -⟩ := hS.column_facts hs hlt
  have hns : ∀ d ∈ (List.range S.last.next).map fun c => Delivery.column c (S.columnOf id c), d.NoShift := by
    intro d hd
    obtain ⟨c, -, rfl⟩ := List.mem_map.mp hd
    trivial
  obtain ⟨p, p', e1, e2, e3⟩ := C45_any_history thr S.h S.w ((List.range S.last.next).map fun c => Delivery.column c (S.columnOf id c)) hns (by
    intro d hd
    obtain ⟨c, hc, rfl⟩ := List.mem_map.mp hd
    have hc : c < S.last.next := List.mem_range.mp hc
    exact ⟨by omega, f2 c hc⟩)
  refine ⟨p, p', e1, ?_, fun t θ ht c hc => ?_⟩
  · have := TC.feed_eq (GenKind.ops S.memE S.memZ) _ hns p
    rw [(hS.stairs hs).2.2.2 id, ← e2, ← this, List.map_map]
    rfl
  · have := e3 t θ ht c hc
    rw [countedFor_once] at this
    refine ⟨fun h => ?_, fun h => ?_⟩
    · rw [this, if_pos (show c < S.last.next from h)]
    · rw [this, if_neg (show ¬ c < S.last.next from h)]; rfl

theorem count_range (n c : Nat) : (List.range n).count c = if c < n then 1 else 0 := by
  split
  · exact List.count_eq_one_of_mem List.nodup_range (List.mem_range.mpr (by assumption))
  · exact List.count_eq_zero_of_not_mem (by rw [List.mem_range]; assumption)

/-- **C100 (RadiusProfile0)** (partial): the `k`-th smallest distances of the rows that the query had when the column was calculated. -/
theorem _root_.Verif.C100_kth_smallest_partial (S : StreamCase α) (xs : List (List Int × Nat)) (hS : S.Ok (xs.map fun x => [x.2])) (hs : S.Still)
    (htrack : ∀ x ∈ xs, TrackOk x.1) :
    ∃ cons', S.result RP0.ops (xs.map fun x => (RP0.new x.1, [x.2])) = .ok cons' ∧
      List.Forall₂ (fun x c => c.2 = [x.2] ∧ ShowsKthOf (S.columnOf x.2) S.w S.column x.1 c.1) xs cons' := by
  refine StreamCase.consumersOf (S := S) RP0.ops (fun _ => rfl) xs (fun x => (RP0.new x.1, [x.2])) hS (fun x p => ShowsKthOf (S.columnOf x.2) S.w S.column x.1 p) ?_
  rintro ⟨track, id⟩ hx
  have hlt : id < S.kinds.length := hS.id_lt (List.mem_map.mpr ⟨_, hx, rfl⟩) (by simp)
  obtain ⟨f1, -, -, -⟩ := hS.column_facts hs hlt
  obtain ⟨p0, p', g1, g2, g3⟩ := RP0.columns_fed (GenKind.ops S.memE S.memZ) (S.columnOf id) S.h S.w track (htrack _ hx) (List.range S.last.next)
    (fun c hc => by rw [List.mem_range] at hc; omega) _ (count_range S.last.next)
  refine ⟨p0, p', g1, by rw [(hS.stairs hs).2.2.2 id]; exact g2, ?_⟩
  have e : (fun c => 0 < if c < S.last.next then 1 else 0) = S.column := by
    funext c
    unfold column
    split <;> simp [*]
  rw [e] at g3
  exact g3

/-- **C100 (RadiusProfile)** (partial): the `k`-th best non-overlapping matches among the rows that the query had when the column was calculated. -/
theorem _root_.Verif.C100_kth_match_partial (S : StreamCase α) (fuel : Nat) (hfuel : S.h ≤ fuel) (xs : List ((List Int × Nat) × Nat)) (hS : S.Ok (xs.map fun x => [x.2]))
    (hs : S.Still) (htrack : ∀ x ∈ xs, TrackOk x.1.1 ∧ x.1.1.Nodup) :
    ∃ cons', S.result (RP.ops fuel) (xs.map fun x => (some (RP.new x.1.1 x.1.2), [x.2])) = .ok cons' ∧
      List.Forall₂ (fun x c => c.2 = [x.2] ∧ ∃ p, c.1 = some p ∧ ShowsMatchesOf (S.columnOf x.2) S.w S.column x.1.1 x.1.2 p) xs cons' := by
  refine StreamCase.consumersOf (S := S) (RP.ops fuel) (fun _ => rfl) xs (fun x => (some (RP.new x.1.1 x.1.2), [x.2])) hS
    (fun x o => ∃ p, o = some p ∧ ShowsMatchesOf (S.columnOf x.2) S.w S.column x.1.1 x.1.2 p) ?_
  rintro ⟨⟨track, e⟩, id⟩ hx
  have hlt : id < S.kinds.length := hS.id_lt (List.mem_map.mpr ⟨_, hx, rfl⟩) (by simp)
  obtain ⟨f1, f2, f3, -⟩ := hS.column_facts hs hlt
  have hpos : 0 < S.h := by
    have h1 := hS.args.query
    have h2 := hS.args.series
    unfold StreamCase.h
    cases hM : S.M with
    | none => simp; omega
    | some M => have := h1 M hM; simp; omega
  obtain ⟨p0, p', g1, g2, g3⟩ := RP.columns_fed (GenKind.ops S.memE S.memZ) (fun c => if c < S.last.next then S.columnOf id c else [.pinf]) S.h S.w
    (fun c => by split; · exact (f2 c (by assumption)).1
                 · simp) fuel (fun c => by
      split
      · exact le_trans (f2 c (by assumption)).2 hfuel
      · show 1 ≤ fuel; omega) track (htrack _ hx).1 (htrack _ hx).2 e (List.range S.last.next)
    (fun c hc => by rw [List.mem_range] at hc; omega) _ (count_range S.last.next)
  refine ⟨p0, some p', g1, ?_, p', rfl, ?_⟩
  · rw [(hS.stairs hs).2.2.2 id, ← g2]
    congr 1
    refine List.map_congr_left fun c hc => ?_
    rw [if_pos (List.mem_range.mp hc)]
  · obtain ⟨k1, l, k2, k3, k4⟩ := g3
    refine ⟨k1, l, k2, k3, fun c hc => ?_⟩
    obtain ⟨is, j1, j2, j3, j4⟩ := k4 c hc
    by_cases hcn : c < S.last.next
    · simp only [hcn, if_true] at j1 j2 j3 j4
      refine ⟨is, j1, j2, j3, fun i k hi => ⟨fun _ => (j4 i k hi).1 (by omega), fun h => (j4 i k hi).2 (h.imp_left fun h => absurd hcn h)⟩⟩
    · rw [f3 c hcn]
      refine ⟨[], by simp, by simp, by simp, fun i k hi => ⟨fun h => absurd h hcn, fun _ => (j4 i k hi).2 (.inl (by simp [hcn]))⟩⟩

/-- **C100 (DistancedThresholdCounter)** (partial): the sizes of best-first selections among the rows that the query had when the column was calculated. -/
theorem _root_.Verif.C100_selection_partial (S : StreamCase α) (argsort : List (Fl ℝ) → List Nat) (hsort : ∀ l, IsArgsort l (argsort l))
    (xs : List ((List (Fl ℝ) × Nat) × Nat)) (hS : S.Ok (xs.map fun x => [x.2])) (hs : S.Still) (hthr : ∀ x ∈ xs, x.1.1 ≠ []) :
    ∃ cons', S.result (DTC.ops argsort) (xs.map fun x => (DTC.new x.1.1 x.1.2, [x.2])) = .ok cons' ∧
      List.Forall₂ (fun x c => c.2 = [x.2] ∧ ShowsSelectionsOf (S.columnOf x.2) S.w (fun c => if c < S.last.next then 1 else 0) x.1.1 x.1.2 c.1) xs cons' := by
  refine StreamCase.consumersOf (S := S) (DTC.ops argsort) (fun _ => rfl) xs (fun x => (DTC.new x.1.1 x.1.2, [x.2])) hS
    (fun x p => ShowsSelectionsOf (S.columnOf x.2) S.w (fun c => if c < S.last.next then 1 else 0) x.1.1 x.1.2 p) ?_
  rintro ⟨⟨thr, ex⟩, id⟩ hx
  have hlt : id < S.kinds.length := hS.id_lt (List.mem_map.mpr ⟨_, hx, rfl⟩) (by simp)
  obtain ⟨f1, -, -, f4⟩ := hS.column_facts hs hlt
  obtain ⟨p0, p', g1, g2, g3⟩ := DTC.columns_fed (GenKind.ops S.memE S.memZ) (S.columnOf id) S.h S.w f4 argsort hsort thr (hthr _ hx) ex (List.range S.last.next)
    (fun c hc => by rw [List.mem_range] at hc; omega) _ (count_range S.last.next)
  exact ⟨p0, p', g1, by rw [(hS.stairs hs).2.2.2 id]; exact g2, g3⟩

end StreamCase

/-- What a client has done so far, had it calculated `k` more columns, without rows. -/
def Spec.MSt.skip (u : MSt α) (k : Nat) : MSt α := { u with next := k }

/-- The columns that were skipped are never calculated. -/
theorem skipped_never (m N : Nat) (M : Option Nat) (us : List (MOp α)) : ∀ (u : MSt α) (r c : Nat), c < u.next → ((u.run m N M us).done r c ↔ u.done r c) := by
  induction us with
  | nil => intro u r c _; rfl
  | cons op us ih =>
    intro u r c hc
    have h1 : c < (u.step m N M op).next := by
      cases op with
      | series v => exact hc
      | query v => exact hc
      | columns k => exact lt_of_lt_of_le hc (le_max_left _ _)
    have h2 : (u.step m N M op).done r c ↔ u.done r c := by
      cases op with
      | series v => rfl
      | query v => rfl
      | columns k =>
        refine ⟨fun h => h.elim id fun h => ?_, .inl⟩
        have := h.1
        omega
    exact (ih _ r c h1).trans h2

theorem feed_shiftSeries (ops : Ops G C K) (c : C) (n : Int) : feed ops c [.shiftSeries n] = ops.shiftSeries c n := by
  show (ops.shiftSeries c n).bind _ = _
  cases ops.shiftSeries c n <;> rfl

theorem feed_shiftQuery (ops : Ops G C K) (c : C) (n : Int) : feed ops c [.shiftQuery n] = ops.shiftQuery c n := by
  show (ops.shiftQuery c n).bind _ = _
  cases ops.shiftQuery c n <;> rfl

/-- The consumers before the one that raises are told of the move, the others are not. -/
theorem shift_lives (ops : Ops G C K) (f : C → C × Option PyErr) (ev : CEvent K) (hf : ∀ c, caught (f c) = feed ops c [ev]) (e : PyErr) {h w : Int}
    {bad : C × Life K} {post : List (C × Life K)} (hbad : ∀ c, live ops h w bad.1 bad.2 = .ok c → f c = (c, some e)) :
    ∀ (pre : List (C × Life K)) (cons : List (C × List Nat)), Lived ops h w (pre ++ bad :: post) cons →
      (∀ x ∈ pre, ∀ c, live ops h w x.1 x.2 = .ok c → (f c).2 = none) →
      ∃ cons', Streaming.shiftConsX f cons = (cons', some e) ∧ Lived ops h w ((pre.map fun x => (x.1, x.2.receive fun _ => [ev])) ++ bad :: post) cons' := by
  intro pre
  induction pre with
  | nil =>
    intro cons H _
    obtain ⟨c, cs, h1, h2, rfl⟩ := List.forall₂_cons_left_iff.mp H
    exact ⟨c :: cs, by rw [Streaming.shiftConsX, hbad c.1 h1.2.2], H⟩
  | cons x pre ih =>
    intro cons H hpre
    obtain ⟨c, cs, h1, h2, rfl⟩ := List.forall₂_cons_left_iff.mp H
    obtain ⟨cs', e1, e2⟩ := ih cs h2 fun y hy => hpre y (List.mem_cons_of_mem _ hy)
    obtain ⟨c', hc'⟩ : ∃ c', f c.1 = (c', none) := ⟨(f c.1).1, by rw [← hpre x List.mem_cons_self c.1 h1.2.2]⟩
    refine ⟨(c', c.2) :: cs', by rw [Streaming.shiftConsX, hc']; simp only [e1], .cons ⟨Life.receive_ne h1.1, ?_, ?_⟩ e2⟩
    · rw [Life.receive_ids]; exact h1.2.1
    · exact (live_receive ops h w _ x.2 h1.1 x.1 c').mpr ⟨c.1, h1.2.2, by rw [← hf, hc']; rfl⟩

theorem shiftConsX_none (f : C → C × Option PyErr) (hf : ∀ c, f c = (c, none)) (cons : List (C × List Nat)) : Streaming.shiftConsX f cons = (cons, none) := by
  induction cons with
  | nil => rfl
  | cons c cs ih => rw [Streaming.shiftConsX, hf, ih]

/-- The interface with consumers that ignore moves of the windows. -/
def Ops.still (ops : Ops G C K) : Ops G C K := { ops with shiftSeries := fun c _ => .ok c, shiftQuery := fun c _ => .ok c }

def AppendOps.still (xs : AppendOps G C K) : AppendOps G C K := { xs with shiftSeries := fun c _ => (c, none), shiftQuery := fun c _ => (c, none) }

theorem shiftBothX_still (xs : AppendOps G C K) (selfJoin : Bool) (n : Int) (cons : List (C × List Nat)) : Streaming.shiftBothX xs.still selfJoin n cons = (cons, none) := by
  unfold Streaming.shiftBothX
  rw [shiftConsX_none (fun c => xs.still.shiftSeries c n) (fun _ => rfl) cons]
  simp only
  split
  · exact shiftConsX_none _ (fun _ => rfl) _
  · rfl

theorem still_fed (ops : Ops G C K) (m N : Nat) (M : Option Nat) (b : Int) (D : Nat → List α → List α → Fl K) (u : MSt α) (op : MOp α) (hop : ∀ k, op ≠ .columns k)
    (cons : List (C × List Nat)) : AllFed ops.still (fun ids => u.events m N M b D ids op) cons cons := by
  rw [AllFed, forall₂_iff_getElem?]
  refine ⟨rfl, fun i x y hx hy => ?_⟩
  rw [hx] at hy
  cases hy
  refine ⟨rfl, ?_⟩
  cases op with
  | series v =>
    simp only [MSt.events]
    split
    · rfl
    · split <;> rfl
  | query v =>
    simp only [MSt.events]
    split <;> rfl
  | columns k => exact absurd rfl (hop k)

theorem gens_serve (memE : Nat → List (Fl ℝ)) (hmemE : ∀ n, (memE n).length = n) (memZ : ZN.Mem) (hmemZ : memZ.Ok) (m N : Nat) (M : Option Nat) (kinds : List (GenKind × Nat))
    (i : Nat) (hi : i < (kinds.map (·.2)).length) : Serves (GenKind.ops memE memZ) m N M (match kinds[i]? with | some k => k.1.dist m | none => fun _ _ => .nan)
      (fun st op => ∀ k, kinds[i]? = some k → k.1.CallOk m M st op) (GensHold m N M kinds i) := by
  rw [List.length_map] at hi
  obtain ⟨k, hk⟩ : ∃ k, kinds[i]? = some k := ⟨_, List.getElem?_eq_getElem hi⟩
  rw [hk]
  have h1 : (fun st op => ∀ k', some k = some k' → k'.1.CallOk m M st op) = k.1.CallOk m M := by
    funext st op
    exact propext ⟨fun h => h k rfl, fun h k' hk' => by cases hk'; exact h⟩
  have h2 : GensHold m N M kinds i = k.1.Holds m N M := by
    funext x st
    exact propext ⟨fun h => h k hk, fun h k' hk' => by rw [hk] at hk'; cases hk'; exact h⟩
  rw [h1, h2]
  exact GenKind.serves memE hmemE memZ hmemZ m N M k.1

/-- **C100, an append that moves the windows.** A `StreamingCalculator` after any session as in C90 in which no call raised, with a consumer `bad` that has no
`shift_series` (a `MatrixProfileLR`, `ThresholdCounter`, `DistancedThresholdCounter`, `RadiusProfile0` or `RadiusProfile`): an `append_series` that moves the windows raises
`AttributeError`. Only the consumers added before `bad` have been told of the move. The generators and the counter have taken the points, and the last calculated column has
not been moved: in any later session the calculator behaves as if the columns that entered the windows had been calculated already, and those are never calculated
(`skipped_never`). -/
theorem C100_raises (memE : Nat → List (Fl ℝ)) (hmemE : ∀ n, (memE n).length = n) (memZ : ZN.Mem) (hmemZ : memZ.Ok)
    (ops : Ops (ColCache ℝ ⊕ ZN) C ℝ) (hops : ops.gen = GenKind.ops memE memZ) (π : Nat → α → ℝ) (m N : Nat) (M : Option Nat) (nDim : Nat) (buffer : Option Int)
    (as : List (SAct (GenKind × Nat) C (MOp α))) (bs : List (Act GenKind C (Streaming.Op ℝ))) (ha : StreamArgs m N M nDim buffer (SAct.gens as) [] [])
    (hacts : AreActs (fun u op => u.step m N M op) (IsStreamCall π m N M nDim (SAct.gens as)) (fun _ => True) 0 [] MSt.init as bs) (hcu : CaughtUp m N M [] MSt.init as)
    (halive : ∀ x ∈ streamLives π m N M buffer as, ∃ c', live ops ((M.getD N + 1 - m : Nat) : Int) ((N + 1 - m : Nat) : Int) x.1 x.2 = .ok c')
    (xs : AppendOps (ColCache ℝ ⊕ ZN) C ℝ) (hxs : xs.Agree ops) (v : List α) (a : NDArray ℝ) (hva : IsArray nDim π v a)
    (u u' : MSt α) (hu : u = streamState m N M MSt.init as) (hmove : moved N u.s.length v.length ≠ 0)
    (hu' : u' = (u.step m N M (.series v)).skip (max u.next (u.s.length - N) + moved N u.s.length v.length))
    (pre post : List (C × Life ℝ)) (bad : C × Life ℝ) (hsplit : streamLives π m N M buffer as = pre ++ bad :: post)
    (hpre : ∀ x ∈ pre, ∀ c, live ops ((M.getD N + 1 - m : Nat) : Int) ((N + 1 - m : Nat) : Int) x.1 x.2 = .ok c → (xs.shiftSeries c (moved N u.s.length v.length : Int)).2 = none)
    (hbad : ∀ c, live ops ((M.getD N + 1 - m : Nat) : Int) ((N + 1 - m : Nat) : Int) bad.1 bad.2 = .ok c →
      xs.shiftSeries c (moved N u.s.length v.length : Int) = (c, some .attributeError))
    (ls1 : List (C × Life ℝ)) (hls1 : ls1 = (pre.map fun x => (x.1, x.2.receive fun _ => [.shiftSeries (moved N u.s.length v.length : Int)])) ++ bad :: post) :
    ∃ st0 st st', Streaming.init (m : Int) (N : Int) (M.map fun M : Nat => (M : Int)) nDim buffer = .ok st0 ∧
      Streaming.session ops (fun k => k.streaming memE memZ) bs st0 = .ok st ∧
      Lived ops ((M.getD N + 1 - m : Nat) : Int) ((N + 1 - m : Nat) : Int) (streamLives π m N M buffer as) st.base.cons ∧
      st.appendSeriesX xs a = (st', some .attributeError) ∧
      Lived ops ((M.getD N + 1 - m : Nat) : Int) ((N + 1 - m : Nat) : Int) ls1 st'.base.cons ∧ st'.streamedSeries = u.s.length + v.length ∧
      ∀ (as2 : List (SAct (GenKind × Nat) C (MOp α))) (bs2 : List (Act GenKind C (Streaming.Op ℝ))), SAct.gens as2 = [] →
        AreActs (fun u op => u.step m N M op) (IsStreamCall π m N M nDim (SAct.gens as)) (fun _ => True) (SAct.gens as).length
          (ls1.map fun x => x.2.ids) u' as2 bs2 →
        CaughtUp m N M (addedAt m N M MSt.init as) u' as2 →
        ∀ ls, ls = lives (fun u op => u.step m N M op) (fun u op ids => u.events m N M (bufferOf m M buffer) (streamDist π m (SAct.gens as)) ids op) u'
          ls1 as2 → Alive ops ((M.getD N + 1 - m : Nat) : Int) ((N + 1 - m : Nat) : Int) ls →
        ∃ st'', Streaming.session ops (fun k => k.streaming memE memZ) bs2 st' = .ok st'' ∧
          Lived ops ((M.getD N + 1 - m : Nat) : Int) ((N + 1 - m : Nat) : Int) ls st''.base.cons := by
  obtain ⟨st0, st, i1, i2, i3, i4⟩ := stream_session_state memE hmemE memZ hmemZ ops hops π m N M nDim buffer as bs ha hacts hcu halive
  rw [← hu] at i4
  obtain ⟨st2, s1, s2, s3⟩ := late_series (ops := ops.still) (fun i hi => ((show ops.still.gen = GenKind.ops memE memZ from hops) ▸ (gens_serve memE hmemE memZ hmemZ m N M (SAct.gens as) i hi)).near) ha.pos ha.series
    (bufferOf m M buffer) st u i4 v a hva (fun i ch _ w k _ => by
      cases k.1 with
      | euclidean _ => exact ⟨trivial, trivial, by simp⟩
      | znorm _ _ => exact ⟨trivial, trivial⟩) st.base.cons (still_fed ops m N M _ _ u (.series v) (by simp) _)
  have hag := appendSeriesX_agree (s := xs.still)
    (ops := ops.still) ⟨hxs.appendSeries, hxs.appendQuery, fun _ _ => rfl, fun _ _ => rfl⟩ st a
  rw [s1] at hag
  have hwin : st.base.numSeries + st.base.m - 1 = (N : Int) := by
    have := ha.series
    rw [i4.cols, i4.m_eq]; omega
  have hrows : Streaming.toRows st.base.nDim a = .ok ((List.range nDim).map fun ch => v.map fun x => .fin (π ch x), v.length) := by
    rw [i4.nDim]; exact toRows_array nDim _ v a hva
  have hsh : Streaming.shiftOf (st.base.numSeries + st.base.m - 1) st.streamedSeries v.length = (moved N u.s.length v.length : Int) := by
    rw [hwin, i4.streamedS, shiftOf_moved]
  have hk0 : (moved N u.s.length v.length : Int) ≠ 0 := by omega
  obtain ⟨cons', f1, f2⟩ := shift_lives ops (fun c => xs.shiftSeries c (moved N u.s.length v.length : Int)) (.shiftSeries (moved N u.s.length v.length : Int))
    (fun c => by rw [feed_shiftSeries]; exact hxs.shiftSeries _ _) .attributeError hbad pre st.base.cons (hsplit ▸ i3) hpre
  rw [← hls1] at f2
  unfold Streaming.appendSeriesX at hag
  simp only [hrows, hsh] at hag
  rcases hg : Streaming.appendGensX xs.appendSeries ((List.range nDim).map fun ch => v.map fun x => Fl.fin (π ch x)) st.base.gens with ⟨gens, _ | e⟩
  swap
  · simp only [AppendOps.still, hg] at hag
    cases hag
  rw [show Streaming.appendGensX xs.still.appendSeries
    ((List.range nDim).map fun ch => v.map fun x => Fl.fin (π ch x)) st.base.gens = (gens, none) from hg] at hag
  simp only [hk0, ne_eq, not_false_eq_true, if_true, shiftBothX_still, caught, Except.ok.injEq] at hag
  subst hag
  set st' : Streaming (ColCache ℝ ⊕ ZN) C := { st with base := { st.base with gens := gens, cons := cons' }, streamedSeries := st.streamedSeries + v.length } with hst'
  have hx : st.appendSeriesX xs a = (st', some .attributeError) := by
    unfold Streaming.appendSeriesX
    simp only [hrows, hsh, hg, hk0, ne_eq, not_false_eq_true, if_true]
    rw [show Streaming.shiftBothX xs st.base.selfJoin (moved N u.s.length v.length : Int) st.base.cons = (cons', some .attributeError) by
      unfold Streaming.shiftBothX
      rw [f1]]
  have hlast := i4.last
  have hnext := i4.next
  have hNm := ha.series
  have hmv : moved N u.s.length v.length = (u.s.length + v.length - N) - (u.s.length - N) := rfl
  have inv : LateInv (GensHold m N M (SAct.gens as)) π ((SAct.gens as).map (·.2)) (addedAt m N M MSt.init as) nDim m N M (bufferOf m M buffer) st' u' := by
    rw [hu']
    refine ⟨s3.genLen, s3.sinceLen, fun i ch x hch hx => ?_, s3.before, s3.chanLt, s3.selfJoin, s3.m_eq, s3.nDim, s3.cols, s3.rows, s3.buffer, ?_, s3.streamedS, s3.streamedQ, s3.self, ?_⟩
    · obtain ⟨g, last, e1, e2, e3⟩ := s3.gen i ch x hch hx
      refine ⟨g, last, e1, e2, fun t e h => ?_⟩
      obtain ⟨f1, f2⟩ := e3 t e h
      refine ⟨le_trans f1 ?_, f2⟩
      show max (-1) (st.base.lastCol - (moved N u.s.length v.length : Int)) ≤ st.base.lastCol
      omega
    · show st.base.lastCol + 1 = ((max u.next (u.s.length - N) + moved N u.s.length v.length - ((u.s ++ v).length - N) : Nat) : Int)
      rw [List.length_append]
      omega
    · show max u.next (u.s.length - N) + moved N u.s.length v.length ≤ (u.s ++ v).length + 1 - m
      rw [List.length_append]
      omega
  refine ⟨st0, st, st', i1, i2, i3, hx, f2, by rw [hst', ← i4.streamedS], fun as2 bs2 hg2 hacts2 hcu2 ls hls hal => ?_⟩
  subst hls
  obtain ⟨st'', r1, r2, -⟩ := stream_session_from memE hmemE memZ hmemZ ops hops π m N M nDim buffer (SAct.gens as) ha as2 bs2 (SAct.gens as) (addedAt m N M MSt.init as)
    ls1 u' st' (by rw [hg2, List.append_nil]) inv hcu2 f2 hal hacts2
  exact ⟨st'', r1, r2⟩

/-- **C100, an append to the query that moves its window.** The same for `append_query` and a consumer without `shift_query`: `AttributeError`, only the consumers
added before it have been told of the move, and the calculator is from then on in the same state as if the call had succeeded. -/
theorem C100_query_raises (memE : Nat → List (Fl ℝ)) (hmemE : ∀ n, (memE n).length = n) (memZ : ZN.Mem) (hmemZ : memZ.Ok)
    (ops : Ops (ColCache ℝ ⊕ ZN) C ℝ) (hops : ops.gen = GenKind.ops memE memZ) (π : Nat → α → ℝ) (m N M : Nat) (nDim : Nat) (buffer : Option Int)
    (as : List (SAct (GenKind × Nat) C (MOp α))) (bs : List (Act GenKind C (Streaming.Op ℝ))) (ha : StreamArgs m N (some M) nDim buffer (SAct.gens as) [] [])
    (hacts : AreActs (fun u op => u.step m N (some M) op) (IsStreamCall π m N (some M) nDim (SAct.gens as)) (fun _ => True) 0 [] MSt.init as bs)
    (hcu : CaughtUp m N (some M) [] MSt.init as)
    (halive : ∀ x ∈ streamLives π m N (some M) buffer as, ∃ c', live ops ((M + 1 - m : Nat) : Int) ((N + 1 - m : Nat) : Int) x.1 x.2 = .ok c')
    (xs : AppendOps (ColCache ℝ ⊕ ZN) C ℝ) (hxs : xs.Agree ops) (v : List α) (a : NDArray ℝ) (hva : IsArray nDim π v a)
    (u : MSt α) (hu : u = streamState m N (some M) MSt.init as) (hmove : moved M u.q.length v.length ≠ 0)
    (pre post : List (C × Life ℝ)) (bad : C × Life ℝ) (hsplit : streamLives π m N (some M) buffer as = pre ++ bad :: post)
    (hpre : ∀ x ∈ pre, ∀ c, live ops ((M + 1 - m : Nat) : Int) ((N + 1 - m : Nat) : Int) x.1 x.2 = .ok c → (xs.shiftQuery c (moved M u.q.length v.length : Int)).2 = none)
    (hbad : ∀ c, live ops ((M + 1 - m : Nat) : Int) ((N + 1 - m : Nat) : Int) bad.1 bad.2 = .ok c →
      xs.shiftQuery c (moved M u.q.length v.length : Int) = (c, some .attributeError))
    (ls1 : List (C × Life ℝ)) (hls1 : ls1 = (pre.map fun x => (x.1, x.2.receive fun _ => [.shiftQuery (moved M u.q.length v.length : Int)])) ++ bad :: post) :
    ∃ st0 st st', Streaming.init (m : Int) (N : Int) (some (M : Int)) nDim buffer = .ok st0 ∧
      Streaming.session ops (fun k => k.streaming memE memZ) bs st0 = .ok st ∧
      Lived ops ((M + 1 - m : Nat) : Int) ((N + 1 - m : Nat) : Int) (streamLives π m N (some M) buffer as) st.base.cons ∧
      st.appendQueryX xs a = (st', some .attributeError) ∧
      Lived ops ((M + 1 - m : Nat) : Int) ((N + 1 - m : Nat) : Int) ls1 st'.base.cons ∧ st'.streamedQuery = u.q.length + v.length ∧
      ∀ (as2 : List (SAct (GenKind × Nat) C (MOp α))) (bs2 : List (Act GenKind C (Streaming.Op ℝ))), SAct.gens as2 = [] →
        AreActs (fun u op => u.step m N (some M) op) (IsStreamCall π m N (some M) nDim (SAct.gens as)) (fun _ => True) (SAct.gens as).length
          (ls1.map fun x => x.2.ids) (u.step m N (some M) (.query v)) as2 bs2 →
        CaughtUp m N (some M) (addedAt m N (some M) MSt.init as) (u.step m N (some M) (.query v)) as2 →
        ∀ ls, ls = lives (fun u op => u.step m N (some M) op) (fun u op ids => u.events m N (some M) (bufferOf m (some M) buffer) (streamDist π m (SAct.gens as)) ids op)
          (u.step m N (some M) (.query v)) ls1 as2 → Alive ops ((M + 1 - m : Nat) : Int) ((N + 1 - m : Nat) : Int) ls →
        ∃ st'', Streaming.session ops (fun k => k.streaming memE memZ) bs2 st' = .ok st'' ∧
          Lived ops ((M + 1 - m : Nat) : Int) ((N + 1 - m : Nat) : Int) ls st''.base.cons := by
  obtain ⟨st0, st, i1, i2, i3, i4⟩ := stream_session_state memE hmemE memZ hmemZ ops hops π m N (some M) nDim buffer as bs ha hacts hcu halive
  rw [← hu] at i4
  have hMm := ha.query M rfl
  obtain ⟨st2, s1, s2, s3⟩ := late_query (ops := ops.still)
    (fun i hi => ((show ops.still.gen = GenKind.ops memE memZ from hops) ▸ (gens_serve memE hmemE memZ hmemZ m N (some M) (SAct.gens as) i hi)).near) ha.pos hMm
    (bufferOf m (some M) buffer) st u i4 v a hva (fun i ch _ w k _ => by
      cases k.1 with
      | euclidean _ => exact ⟨by simp [GSt.Valid], trivial, by simp⟩
      | znorm _ _ => exact ⟨by simp [GSt.Valid], trivial⟩) st.base.cons (still_fed ops m N (some M) _ _ u (.query v) (by simp) _)
  have hag := appendQueryX_agree (s := xs.still)
    (ops := ops.still) ⟨hxs.appendSeries, hxs.appendQuery, fun _ _ => rfl, fun _ _ => rfl⟩ st a
  rw [s1] at hag
  have hwin : st.base.numQuery + st.base.m - 1 = (M : Int) := by
    rw [i4.rows, i4.m_eq, Option.getD_some]; omega
  have hsj : st.base.selfJoin = false := i4.selfJoin
  have hrows : Streaming.toRows st.base.nDim a = .ok ((List.range nDim).map fun ch => v.map fun x => .fin (π ch x), v.length) := by
    rw [i4.nDim]; exact toRows_array nDim _ v a hva
  have hsh : Streaming.shiftOf (st.base.numQuery + st.base.m - 1) st.streamedQuery v.length = (moved M u.q.length v.length : Int) := by
    rw [hwin, i4.streamedQ (by simp), shiftOf_moved]
  have hk0 : (moved M u.q.length v.length : Int) ≠ 0 := by omega
  obtain ⟨cons', f1, f2⟩ := shift_lives ops (fun c => xs.shiftQuery c (moved M u.q.length v.length : Int)) (.shiftQuery (moved M u.q.length v.length : Int))
    (fun c => by rw [feed_shiftQuery]; exact hxs.shiftQuery _ _) .attributeError hbad pre st.base.cons (hsplit ▸ i3) hpre
  rw [← hls1] at f2
  unfold Streaming.appendQueryX at hag
  simp only [hsj, hrows, hsh, Bool.false_eq_true, if_false] at hag
  rcases hg : Streaming.appendGensX xs.appendQuery ((List.range nDim).map fun ch => v.map fun x => Fl.fin (π ch x)) st.base.gens with ⟨gens, _ | e⟩
  swap
  · simp only [AppendOps.still, hg] at hag
    cases hag
  rw [show Streaming.appendGensX xs.still.appendQuery
    ((List.range nDim).map fun ch => v.map fun x => Fl.fin (π ch x)) st.base.gens = (gens, none) from hg] at hag
  simp only [hk0, ne_eq, not_false_eq_true, if_true, AppendOps.still] at hag
  rw [shiftConsX_none _ (fun _ => rfl)] at hag
  simp only [caught, Except.ok.injEq] at hag
  subst hag
  set st' : Streaming (ColCache ℝ ⊕ ZN) C := { st with base := { st.base with gens := gens, cons := cons' }, streamedQuery := st.streamedQuery + v.length } with hst'
  have hx : st.appendQueryX xs a = (st', some .attributeError) := by
    unfold Streaming.appendQueryX
    simp only [hsj, hrows, hsh, hg, hk0, Bool.false_eq_true, if_false, ne_eq, not_false_eq_true, if_true]
    rw [f1, hst']
    simp only [hsj]
  have inv : LateInv (GensHold m N (some M) (SAct.gens as)) π ((SAct.gens as).map (·.2)) (addedAt m N (some M) MSt.init as) nDim m N (some M) (bufferOf m (some M) buffer)
      st' (u.step m N (some M) (.query v)) :=
    ⟨s3.genLen, s3.sinceLen, s3.gen, s3.before, s3.chanLt, i4.selfJoin, s3.m_eq, s3.nDim, s3.cols, s3.rows, s3.buffer, s3.last, s3.streamedS, s3.streamedQ, s3.self, s3.next⟩
  refine ⟨st0, st, st', i1, i2, i3, hx, f2, by rw [hst']; simp only; rw [← i4.streamedQ (by simp)], fun as2 bs2 hg2 hacts2 hcu2 ls hls hal => ?_⟩
  subst hls
  obtain ⟨st'', r1, r2, -⟩ := stream_session_from memE hmemE memZ hmemZ ops hops π m N (some M) nDim buffer (SAct.gens as) ha as2 bs2 (SAct.gens as) (addedAt m N (some M) MSt.init as)
    ls1 _ st' (by rw [hg2, List.append_nil]) inv hcu2 f2 hal hacts2
  exact ⟨st'', r1, r2⟩

/-- A calculation in which nothing leaves the windows: the columns 0 and 1 are calculated for one row, column 2 for three rows. -/
noncomputable def exStill : StreamCase (ℤ × ℤ) :=
  { exStreamCase with
    N := 6
    M := some 4
    us := [.query [(4, 1), (4, 6)], .series [(1, 2), (5, 0), (2, 7)], .columns 3, .query [(7, 2), (0, 5)], .series [(8, 1)], .columns 5]
    os := [.query (.d2 [[.fin 4, .fin 4], [.fin 1, .fin 6]] 2), .series (.d2 [[.fin 1, .fin 5, .fin 2], [.fin 2, .fin 0, .fin 7]] 3), .columns (fun _ => false) (.int 3),
      .query (.d2 [[.fin 7, .fin 0], [.fin 2, .fin 5]] 2), .series (.d1 [.fin 8, .fin 1]), .columns (fun _ => false) (.int 5)] }

theorem exStill_good (s q : List (ℤ × ℤ)) : ∀ g ∈ exKinds, g.1.Good 2 (lastN 6 (s.map (exChan g.2))) (lastN 4 (q.map (exChan g.2))) := by
  intro g hg
  simp only [exKinds, List.mem_cons, List.not_mem_nil, or_false] at hg
  rcases hg with rfl | rfl | rfl
  · refine noTiny_int _ _ _ ?_ ?_ <;>
    · intro x hx
      obtain ⟨z, -, rfl⟩ := List.mem_map.mp (List.mem_of_mem_drop (by simpa [lastN] using hx))
      exact ⟨z.2, by simp [exChan]⟩
  · trivial
  · trivial

theorem exStill_ok {idss : List (List Nat)} (h : ∀ ids ∈ idss, ∀ id ∈ ids, id = 0 ∨ id = 2) (h0 : ∃ ids ∈ idss, 0 ∈ ids) (h2 : ∃ ids ∈ idss, 2 ∈ ids) : exStill.Ok idss where
  memE := (exStreamCase_ok h h0 h2).memE
  memZ := (exStreamCase_ok h h0 h2).memZ
  args := by
    obtain ⟨-, -, -, -, a1, a2, a3, a4, a5⟩ := (exStreamCase_ok h h0 h2).args
    exact ⟨by decide, by decide, by simp [exStill, exStreamCase], by simp [exStill], a1, a2, a3, a4, a5⟩
  calls := by
    refine ⟨.inl ?_, .inl ?_, ⟨3, .inl rfl, by simp, .inl rfl⟩, .inl ?_, .inr ⟨(8, 1), rfl, ?_⟩, ⟨5, .inl rfl, by simp, .inl rfl⟩, trivial⟩ <;>
      simp [exStill, exStreamCase, exChan, List.range_succ]
  valid := by
    refine ⟨?_, ?_, ?_, ?_, ?_, ?_, trivial⟩ <;> simp [MSt.Valid, MSt.step, MSt.init, exStill, exStreamCase]
  good := ⟨fun _ _ => exStill_good _ _, fun _ _ => exStill_good _ _, fun _ _ => exStill_good _ _, fun _ _ => exStill_good _ _, fun _ _ => exStill_good _ _,
    fun _ _ => exStill_good _ _, trivial⟩

theorem exStill_still : exStill.Still := by
  constructor <;> simp [StreamCase.last, exStill, MSt.run, MSt.step, MSt.init, exStreamCase]

theorem exStill_next : exStill.last.next = 3 := by
  simp [StreamCase.last, exStill, MSt.run, MSt.step, MSt.init, exStreamCase, lastN]

/-- C100 on a concrete calculation: two consumers each. -/
example : exStill.last.next = 3 ∧ (∀ r, exStill.last.done r 1 ↔ r < 1) ∧ (∀ r, exStill.last.done r 2 ↔ r < 3) ∧
    (∃ a b, exStill.result MP.ops [(MP.new, [2]), (MP.new, [0])] = .ok [(a, [2]), (b, [0])] ∧ ShowsSidesOf (exStill.columnOf 2) 5 exStill.column a ∧
      ShowsSidesOf (exStill.columnOf 0) 5 exStill.column b) ∧
    (∃ a b, exStill.result TC.ops [(TC.new [.fin 2, .pinf], [2]), (TC.new [.fin 1], [0])] = .ok [(a, [2]), (b, [0])] ∧
      ShowsCountsOf (exStill.columnOf 2) 5 exStill.column [.fin 2, .pinf] a ∧ ShowsCountsOf (exStill.columnOf 0) 5 exStill.column [.fin 1] b) ∧
    (∃ a b, exStill.result RP0.ops [(RP0.new [2, 0], [2]), (RP0.new [1], [0])] = .ok [(a, [2]), (b, [0])] ∧ ShowsKthOf (exStill.columnOf 2) 5 exStill.column [2, 0] a ∧
      ShowsKthOf (exStill.columnOf 0) 5 exStill.column [1] b) ∧
    (∃ a b, exStill.result (RP.ops 3) [(some (RP.new [2, 0] 1), [2]), (some (RP.new [1] 0), [0])] = .ok [(some a, [2]), (some b, [0])] ∧
      ShowsMatchesOf (exStill.columnOf 2) 5 exStill.column [2, 0] 1 a ∧ ShowsMatchesOf (exStill.columnOf 0) 5 exStill.column [1] 0 b) ∧
    ∃ a b, exStill.result (DTC.ops exArgsort) [(DTC.new [.fin 2, .fin 1] 1, [2]), (DTC.new [.pinf] 0, [0])] = .ok [(a, [2]), (b, [0])] ∧
      ShowsSelectionsOf (exStill.columnOf 2) 5 (fun c => if c < exStill.last.next then 1 else 0) [.fin 2, .fin 1] 1 a ∧
      ShowsSelectionsOf (exStill.columnOf 0) 5 (fun c => if c < exStill.last.next then 1 else 0) [.pinf] 0 b := by
  refine ⟨exStill_next, ?_, ?_, ?_, ?_, ?_, ?_, ?_⟩
  · intro r
    simp [StreamCase.last, exStill, MSt.run, MSt.step, MSt.init, exStreamCase, lastN]
    try omega
  · intro r
    simp [StreamCase.last, exStill, MSt.run, MSt.step, MSt.init, exStreamCase, lastN]
    try omega
  · obtain ⟨cons', h1, h2⟩ := C100_matrix_profile_partial exStill [2, 0] (exStill_ok (by simp) (by simp) (by simp)) exStill_still
    match cons', h1, h2 with
    | [(a, _), (b, _)], h1, .cons ⟨rfl, ha⟩ (.cons ⟨rfl, hb⟩ .nil) => exact ⟨a, b, h1, ha, hb⟩
  · obtain ⟨cons', h1, h2⟩ := C100_counts_partial exStill [([.fin 2, .pinf], 2), ([.fin 1], 0)] (exStill_ok (by simp) (by simp) (by simp)) exStill_still
    match cons', h1, h2 with
    | [(a, _), (b, _)], h1, .cons ⟨rfl, ha⟩ (.cons ⟨rfl, hb⟩ .nil) => exact ⟨a, b, h1, ha, hb⟩
  · obtain ⟨cons', h1, h2⟩ := C100_kth_smallest_partial exStill [([2, 0], 2), ([1], 0)] (exStill_ok (by simp) (by simp) (by simp)) exStill_still (by simp [TrackOk])
    match cons', h1, h2 with
    | [(a, _), (b, _)], h1, .cons ⟨rfl, ha⟩ (.cons ⟨rfl, hb⟩ .nil) => exact ⟨a, b, h1, ha, hb⟩
  · obtain ⟨cons', h1, h2⟩ := C100_kth_match_partial exStill 3 (by decide) [(([2, 0], 1), 2), (([1], 0), 0)] (exStill_ok (by simp) (by simp) (by simp)) exStill_still
      (by simp [TrackOk])
    match cons', h1, h2 with
    | [(_, _), (_, _)], h1, .cons ⟨rfl, a, ea, ha⟩ (.cons ⟨rfl, b, eb, hb⟩ .nil) =>
      dsimp only at ea eb
      subst ea eb
      exact ⟨a, b, h1, ha, hb⟩
  · obtain ⟨cons', h1, h2⟩ := C100_selection_partial exStill exArgsort exArgsort_ok [(([.fin 2, .fin 1], 1), 2), (([.pinf], 0), 0)]
      (exStill_ok (by simp) (by simp) (by simp)) exStill_still (by simp)
    match cons', h1, h2 with
    | [(a, _), (b, _)], h1, .cons ⟨rfl, ha⟩ (.cons ⟨rfl, hb⟩ .nil) => exact ⟨a, b, h1, ha, hb⟩

/-- One Euclidean generator for channel 1 and one `MatrixProfileLR`; two query frames, three series frames and two columns. -/
noncomputable def exStillActs : List (SAct (GenKind × Nat) (MP ℝ) (MOp (ℤ × ℤ))) :=
  [.generator (.euclidean 2, 1), .consumer MP.new [0], .call (.query [(4, 1), (4, 6)]), .call (.series [(1, 2), (5, 0), (2, 7)]), .call (.columns 3)]

noncomputable def exStillActCalls : List (Act GenKind (MP ℝ) (Streaming.Op ℝ)) :=
  [.generator (.euclidean 2) 1, .consumer MP.new [0], .call [0] (.query (.d2 [[.fin 4, .fin 4], [.fin 1, .fin 6]] 2)),
   .call [0] (.series (.d2 [[.fin 1, .fin 5, .fin 2], [.fin 2, .fin 0, .fin 7]] 3)), .call [0] (.columns (fun _ => false) (.int 3))]

/-- The columns calculated at the end, in the order in which the profile holds them: of the stream's columns 0, 1, 4, 5 and 6. -/
noncomputable def exSkipped (c : Nat) : List (Fl ℝ) :=
  [.fin √(match c with | 0 => 37 | 1 => 2 | 2 => 13 | 3 => 68 | _ => 34)]

theorem exStillActs_args : StreamArgs 2 6 (some 4) 2 none (SAct.gens exStillActs) [] [] := by
  refine ⟨by decide, by decide, by simp, by simp, ?_, ?_, by simp, by decide, by simp⟩
  · simp [SAct.gens, exStillActs, GenKind.ScaleOk]
  · simp [SAct.gens, exStillActs]

theorem exStillActs_good (s q : List (ℤ × ℤ)) : ∀ g ∈ SAct.gens exStillActs, g.1.Good 2 (lastN 6 (s.map (exChan g.2))) (lastN 4 (q.map (exChan g.2))) :=
  fun g hg => exStill_good s q g (by
    simp only [SAct.gens, exStillActs, List.mem_cons, List.not_mem_nil, or_false] at hg
    simp [exKinds, hg])

theorem exStillActs_calls : AreActs (fun u op => u.step 2 6 (some 4) op) (IsStreamCall exChan 2 6 (some 4) 2 (SAct.gens exStillActs))
    (fun _ => True) 0 [] MSt.init exStillActs exStillActCalls := by
  refine ⟨trivial, rfl, rfl, rfl, rfl, ⟨.inl ?_, ?_, fun _ _ => exStillActs_good _ _⟩, by simp, by simp, by simp,
    ⟨.inl ?_, ?_, fun _ _ => exStillActs_good _ _⟩, by simp, by simp, by simp,
    ⟨⟨3, .inl rfl, by simp, .inl rfl⟩, ?_, fun _ _ => exStillActs_good _ _⟩, by simp, by simp, by simp, trivial⟩
  · simp [exChan, List.range_succ]
  · simp [MSt.Valid]
  · simp [exChan, List.range_succ]
  · simp [MSt.Valid]
  · simp [MSt.Valid, MSt.step, MSt.init]

theorem exStillActs_dist (u v x y : ℤ × ℤ) : streamDist exChan 2 (SAct.gens exStillActs) 0 [u, v] [x, y] = .fin √((((u.2 - x.2) ^ 2 + (v.2 - y.2) ^ 2 : ℤ)) : ℝ) := by
  simp [streamDist, exStillActs, SAct.gens, GenKind.dist, sqd, seqOf, exChan, Finset.sum_range_succ]

theorem exStillActs_lives : streamLives exChan 2 6 (some 4) none exStillActs =
    [(MP.new, [([0], (List.range 2).map fun c : Nat => CEvent.column (c : Int) [exSkipped c])])] := by
  set Δ := streamDist exChan 2 (SAct.gens exStillActs) with hΔ
  refine Eq.trans (b := [(MP.new, [([0], [CEvent.column 0 [[Δ 0 [(1, 2), (5, 0)] [(4, 1), (4, 6)]]], CEvent.column 1 [[Δ 0 [(5, 0), (2, 7)] [(4, 1), (4, 6)]]]])])]) rfl ?_
  rw [hΔ, exStillActs_dist, exStillActs_dist]
  simp [exSkipped, List.range_succ]

theorem exSkipped_live (gops : GenOps G ℝ) (n : Nat) (hn : n ≤ 5) : ∃ p', live (MP.ops gops) (((some 4).getD 6 + 1 - 2 : Nat) : Int) ((6 + 1 - 2 : Nat) : Int) MP.new
    [([0], (List.range n).map fun c : Nat => CEvent.column (c : Int) [exSkipped c])] = .ok p' ∧ ShowsSidesOf exSkipped 5 (fun c => c < n) p' := by
  obtain ⟨p0, p', e1, e2, e3⟩ := MP.columns_fed gops exSkipped 3 5 n hn (by simp [exSkipped]) (by simp [exSkipped])
  refine ⟨p', ?_, e3⟩
  show (do live (MP.ops gops) 3 5 (← feed (MP.ops gops) (← (MP.ops gops).initialise MP.new 1 ((3 : Nat) : Int) ((5 : Nat) : Int)) _) []) = _
  rw [e1]
  show (do live (MP.ops gops) 3 5 (← feed (MP.ops gops) p0 _) []) = _
  rw [e2]
  rfl

theorem appendSeriesX_caught (memE : Nat → List (Fl ℝ)) (memZ : ZN.Mem) (g : ColCache ℝ ⊕ ZN) (v : List (Fl ℝ)) :
    caught (GenKind.appendSeriesX memE g v) = (GenKind.ops memE memZ).appendSeries g v := by
  cases g with
  | inl x =>
    show _ = ((Eucl.genOps memE Real.sqrt).appendSeries x v).map Sum.inl
    simp only [GenKind.appendSeriesX]
    cases (Eucl.genOps memE Real.sqrt).appendSeries x v <;> rfl
  | inr z =>
    show _ = (ZN.ofCall (z.appendSeries v)).map Sum.inr
    simp only [GenKind.appendSeriesX]
    rcases z.appendSeries v with ⟨z', _ | e⟩ <;> rfl

theorem appendQueryX_caught (memE : Nat → List (Fl ℝ)) (memZ : ZN.Mem) (g : ColCache ℝ ⊕ ZN) (v : List (Fl ℝ)) :
    caught (GenKind.appendQueryX memE g v) = (GenKind.ops memE memZ).appendQuery g v := by
  cases g with
  | inl x =>
    show _ = ((Eucl.genOps memE Real.sqrt).appendQuery x v).map Sum.inl
    simp only [GenKind.appendQueryX]
    cases (Eucl.genOps memE Real.sqrt).appendQuery x v <;> rfl
  | inr z =>
    show _ = (ZN.ofCall (z.appendQuery v)).map Sum.inr
    simp only [GenKind.appendQueryX]
    rcases z.appendQuery v with ⟨z', _ | e⟩ <;> rfl

/-- Consumers without `shift_series` and `shift_query` next to generators of the two classes. -/
noncomputable def raising (memE : Nat → List (Fl ℝ)) : AppendOps (ColCache ℝ ⊕ ZN) C ℝ :=
  ⟨GenKind.appendSeriesX memE, GenKind.appendQueryX memE, fun c _ => (c, some .attributeError), fun c _ => (c, some .attributeError)⟩

/-- The hypotheses on `xs` in `C100_raises` and `C100_query_raises` hold for these five classes of consumers. -/
theorem raising_agree (memE : Nat → List (Fl ℝ)) (memZ : ZN.Mem) : AppendOps.Agree (raising memE) (MP.ops (GenKind.ops memE memZ)) ∧
    AppendOps.Agree (raising memE) (TC.ops (GenKind.ops memE memZ)) ∧ (∀ argsort, AppendOps.Agree (raising memE) (DTC.ops argsort (GenKind.ops memE memZ))) ∧
    AppendOps.Agree (raising memE) (RP0.ops (GenKind.ops memE memZ)) ∧ ∀ fuel, AppendOps.Agree (raising memE) (RP.ops fuel (GenKind.ops memE memZ)) :=
  have h1 := appendSeriesX_caught memE memZ
  have h2 := appendQueryX_caught memE memZ
  ⟨⟨h1, h2, fun _ _ => rfl, fun _ _ => rfl⟩, ⟨h1, h2, fun _ _ => rfl, fun _ _ => rfl⟩, fun _ => ⟨h1, h2, fun _ _ => rfl, fun _ _ => rfl⟩,
    ⟨h1, h2, fun _ _ => rfl, fun _ _ => rfl⟩, fun _ => ⟨h1, h2, fun _ _ => rfl, fun _ _ => rfl⟩⟩

/-- **C100, columns that are skipped.** Five series frames more: the window moves by two frames and the call raises. The three columns that `calculate_columns` calculates
after that are those of the stream's columns 4, 5 and 6; the columns 2 and 3 are never calculated, and the profile holds at its positions 0 and 1 the columns 0 and 1 of the
stream, although its windows begin at frame 2. -/
theorem C100_skips_columns : ∃ st0 st st' st'' p, Streaming.init 2 6 (some 4) 2 none = .ok st0 ∧
    Streaming.session (MP.ops (GenKind.ops exStreamCase.memE exStreamCase.memZ)) (fun k : GenKind => k.streaming exStreamCase.memE exStreamCase.memZ) exStillActCalls st0 = .ok st ∧
    st.appendSeriesX (raising exStreamCase.memE)
      (.d2 [[.fin 8, .fin 3, .fin 9, .fin 4, .fin 6], [.fin 1, .fin 3, .fin 9, .fin 4, .fin 1]] 5) = (st', some .attributeError) ∧
    Streaming.session (MP.ops (GenKind.ops exStreamCase.memE exStreamCase.memZ)) (fun k : GenKind => k.streaming exStreamCase.memE exStreamCase.memZ)
      [.call [0] (.columns (fun _ => false) (.int 5))] st' = .ok st'' ∧ st''.base.cons = [(p, [0])] ∧ ShowsSidesOf exSkipped 5 (fun c => c < 5) p := by
  have hok := exStill_ok (idss := [[0], [2]]) (by simp) (by simp) (by simp)
  obtain ⟨st0, st, st', h1, h2, -, h4, -, -, h5⟩ := C100_raises exStreamCase.memE hok.memE exStreamCase.memZ hok.memZ (MP.ops (GenKind.ops exStreamCase.memE exStreamCase.memZ)) rfl
    exChan 2 6 (some 4) 2 none exStillActs exStillActCalls exStillActs_args exStillActs_calls (by simp [CaughtUp, exStillActs, Filled, MSt.step, MSt.init])
    (by
      rw [exStillActs_lives]
      obtain ⟨p', e1, -⟩ := exSkipped_live (GenKind.ops exStreamCase.memE exStreamCase.memZ) 2 (by decide)
      intro x hx
      obtain rfl := List.mem_singleton.mp hx
      exact ⟨p', e1⟩)
    (raising exStreamCase.memE)
    (raising_agree _ _).1 [(8, 1), (3, 3), (9, 9), (4, 4), (6, 1)]
    (.d2 [[.fin 8, .fin 3, .fin 9, .fin 4, .fin 6], [.fin 1, .fin 3, .fin 9, .fin 4, .fin 1]] 5) (.inl (by simp [exChan, List.range_succ])) _ _ rfl (by decide) rfl [] [] _
    exStillActs_lives (by simp) (fun _ _ => rfl) _ rfl
  obtain ⟨p', e1, e2⟩ := exSkipped_live (GenKind.ops exStreamCase.memE exStreamCase.memZ) 5 (by decide)
  obtain ⟨st'', r1, r2⟩ := h5 [.call (.columns 5)] [.call [0] (.columns (fun _ => false) (.int 5))] rfl
    (by
      refine ⟨⟨⟨5, .inl rfl, by simp, .inl rfl⟩, ?_, fun _ _ => exStillActs_good _ _⟩, by simp, by simp [Life.ids], by simp [Life.ids, SAct.gens, exStillActs], trivial⟩
      simp [MSt.Valid, MSt.step, MSt.init, streamState, exStillActs, Spec.MSt.skip])
    (by simp [CaughtUp, exStillActs, Filled, MSt.step, MSt.init, addedAt])
    [(MP.new, [([0], (List.range 5).map fun c : Nat => CEvent.column (c : Int) [exSkipped c])])] (by
      set Δ := streamDist exChan 2 (SAct.gens exStillActs) with hΔ
      refine Eq.trans (b := [(MP.new, [([0], ((List.range 2).map fun c : Nat => CEvent.column (c : Int) [exSkipped c]) ++
        [CEvent.column 2 [[Δ 0 [(3, 3), (9, 9)] [(4, 1), (4, 6)]]], CEvent.column 3 [[Δ 0 [(9, 9), (4, 4)] [(4, 1), (4, 6)]]],
          CEvent.column 4 [[Δ 0 [(4, 4), (6, 1)] [(4, 1), (4, 6)]]]])])]) ?_ rfl
      rw [hΔ, exStillActs_dist, exStillActs_dist, exStillActs_dist]
      simp [exSkipped, List.range_succ])
    (by
      intro x hx
      obtain rfl := List.mem_singleton.mp hx
      exact ⟨by simp, p', e1⟩)
  obtain ⟨⟨p, ids⟩, l, ⟨-, d1, d2⟩, d3, d4⟩ := List.forall₂_cons_left_iff.mp r2
  obtain rfl := List.forall₂_nil_left_iff.mp d3
  rw [e1] at d2
  cases Except.ok.inj d2
  dsimp only at d1
  subst d1
  exact ⟨st0, st, st', st'', p, h1, h2, h4, r1, d4, e2⟩

/-- Consumers that note their calls; those with `false` have no `shift_series` and `shift_query`. -/
def picky (gops : GenOps G K) : Ops G (Bool × List (CEvent K)) K :=
  { calcColumn := gops.calcColumn, calcDiagonal := gops.calcDiagonal, appendSeries := gops.appendSeries, appendQuery := gops.appendQuery,
    initialise := fun c _ _ _ => .ok (c.1, []), processColumn := fun l c v => .ok (l.1, l.2 ++ [.column c v]),
    processDiagonal := fun l d v => .ok (l.1, l.2 ++ [.diagonal d v]),
    shiftSeries := fun l n => if l.1 then .ok (l.1, l.2 ++ [.shiftSeries n]) else .error .attributeError,
    shiftQuery := fun l n => if l.1 then .ok (l.1, l.2 ++ [.shiftQuery n]) else .error .attributeError }

noncomputable def pickyX (memE : Nat → List (Fl ℝ)) : AppendOps (ColCache ℝ ⊕ ZN) (Bool × List (CEvent ℝ)) ℝ :=
  ⟨GenKind.appendSeriesX memE, GenKind.appendQueryX memE, fun l n => if l.1 then ((l.1, l.2 ++ [.shiftSeries n]), none) else (l, some .attributeError),
    fun l n => if l.1 then ((l.1, l.2 ++ [.shiftQuery n]), none) else (l, some .attributeError)⟩

theorem pickyX_agree (memE : Nat → List (Fl ℝ)) (memZ : ZN.Mem) : AppendOps.Agree (pickyX memE) (picky (GenKind.ops memE memZ)) := by
  refine ⟨appendSeriesX_caught memE memZ, appendQueryX_caught memE memZ, ?_, ?_⟩ <;>
  · rintro ⟨_ | _, l⟩ n <;> rfl

/-- The session of `exStillActs` with three such consumers, of which the second lacks the methods. -/
noncomputable def exPicky : List (SAct (GenKind × Nat) (Bool × List (CEvent ℝ)) (MOp (ℤ × ℤ))) :=
  [.generator (.euclidean 2, 1), .consumer (true, []) [0], .consumer (false, []) [0], .consumer (true, []) [0], .call (.query [(4, 1), (4, 6)]),
   .call (.series [(1, 2), (5, 0), (2, 7)]), .call (.columns 3)]

noncomputable def exPickyCalls : List (Act GenKind (Bool × List (CEvent ℝ)) (Streaming.Op ℝ)) :=
  [.generator (.euclidean 2) 1, .consumer (true, []) [0], .consumer (false, []) [0], .consumer (true, []) [0],
   .call [0] (.query (.d2 [[.fin 4, .fin 4], [.fin 1, .fin 6]] 2)),
   .call [0] (.series (.d2 [[.fin 1, .fin 5, .fin 2], [.fin 2, .fin 0, .fin 7]] 3)), .call [0] (.columns (fun _ => false) (.int 3))]

theorem exPicky_calls : AreActs (fun u op => u.step 2 6 (some 4) op) (IsStreamCall exChan 2 6 (some 4) 2 (SAct.gens exPicky))
    (fun _ => True) 0 [] MSt.init exPicky exPickyCalls := by
  refine ⟨trivial, rfl, rfl, rfl, rfl, rfl, rfl, rfl, rfl, ⟨.inl ?_, ?_, fun _ _ => exStillActs_good _ _⟩, by simp, by simp, by simp,
    ⟨.inl ?_, ?_, fun _ _ => exStillActs_good _ _⟩, by simp, by simp, by simp,
    ⟨⟨3, .inl rfl, by simp, .inl rfl⟩, ?_, fun _ _ => exStillActs_good _ _⟩, by simp, by simp, by simp, trivial⟩
  · simp [exChan, List.range_succ]
  · simp [MSt.Valid]
  · simp [exChan, List.range_succ]
  · simp [MSt.Valid]
  · simp [MSt.Valid, MSt.step, MSt.init]

theorem exPicky_lives : ∃ a b, streamLives exChan 2 6 (some 4) none exPicky =
    [((true, []), [([0], [.column 0 a, .column 1 b])]), ((false, []), [([0], [.column 0 a, .column 1 b])]), ((true, []), [([0], [.column 0 a, .column 1 b])])] :=
  ⟨_, _, rfl⟩

/-- `C100_raises` and `C100_query_raises` with consumers of both sorts: the first consumer is told of the move, the third is not. -/
example : ∃ st0 st st' st'' a b, Streaming.init 2 6 (some 4) 2 none = .ok st0 ∧
    Streaming.session (picky (GenKind.ops exStreamCase.memE exStreamCase.memZ)) (fun k : GenKind => k.streaming exStreamCase.memE exStreamCase.memZ) exPickyCalls st0 = .ok st ∧
    st.appendQueryX (pickyX exStreamCase.memE) (.d2 [[.fin 8, .fin 3, .fin 9], [.fin 1, .fin 3, .fin 9]] 3) = (st', some .attributeError) ∧ st'.streamedQuery = 5 ∧
    st'.base.cons = [((true, [.column 0 a, .column 1 b, .shiftQuery 1]), [0]), ((false, [.column 0 a, .column 1 b]), [0]), ((true, [.column 0 a, .column 1 b]), [0])] ∧
    st.appendSeriesX (pickyX exStreamCase.memE) (.d2 [[.fin 8, .fin 3, .fin 9, .fin 4, .fin 6], [.fin 1, .fin 3, .fin 9, .fin 4, .fin 1]] 5) = (st'', some .attributeError) ∧
    st''.base.cons = [((true, [.column 0 a, .column 1 b, .shiftSeries 2]), [0]), ((false, [.column 0 a, .column 1 b]), [0]), ((true, [.column 0 a, .column 1 b]), [0])] := by
  have hok := exStill_ok (idss := [[0], [2]]) (by simp) (by simp) (by simp)
  obtain ⟨a, b, hl⟩ := exPicky_lives
  have halive : ∀ x ∈ streamLives exChan 2 6 (some 4) none exPicky, ∃ c', live (picky (GenKind.ops exStreamCase.memE exStreamCase.memZ)) (((some 4).getD 6 + 1 - 2 : Nat) : Int)
      ((6 + 1 - 2 : Nat) : Int) x.1 x.2 = .ok c' := by
    rw [hl]
    intro x hx
    simp only [List.mem_cons, List.not_mem_nil, or_false] at hx
    rcases hx with rfl | rfl | rfl <;> exact ⟨_, rfl⟩
  have hargs : StreamArgs 2 6 (some 4) 2 none (SAct.gens exPicky) [] [] := exStillActs_args
  have hcu : CaughtUp 2 6 (some 4) [] MSt.init exPicky := by simp [CaughtUp, exPicky, Filled, MSt.step, MSt.init]
  obtain ⟨st0, st, st', h1, h2, -, h4, h5, h6, -⟩ := C100_query_raises exStreamCase.memE hok.memE exStreamCase.memZ hok.memZ
    (picky (GenKind.ops exStreamCase.memE exStreamCase.memZ)) rfl exChan 2 6 4 2 none exPicky exPickyCalls hargs exPicky_calls hcu halive
    (pickyX exStreamCase.memE) (pickyX_agree _ _) [(8, 1), (3, 3), (9, 9)]
    (.d2 [[.fin 8, .fin 3, .fin 9], [.fin 1, .fin 3, .fin 9]] 3) (.inl (by simp [exChan, List.range_succ])) _ rfl (by decide) [_] [_] _ hl
    (by
      intro x hx c hc
      obtain rfl := List.mem_singleton.mp hx
      cases Except.ok.inj hc
      rfl)
    (by
      intro c hc
      cases Except.ok.inj hc
      rfl) _ rfl
  obtain ⟨st0', st2, st'', g1, g2, -, g4, g5, -⟩ := C100_raises exStreamCase.memE hok.memE exStreamCase.memZ hok.memZ
    (picky (GenKind.ops exStreamCase.memE exStreamCase.memZ)) rfl exChan 2 6 (some 4) 2 none exPicky exPickyCalls hargs exPicky_calls hcu halive
    (pickyX exStreamCase.memE) (pickyX_agree _ _) [(8, 1), (3, 3), (9, 9), (4, 4), (6, 1)]
    (.d2 [[.fin 8, .fin 3, .fin 9, .fin 4, .fin 6], [.fin 1, .fin 3, .fin 9, .fin 4, .fin 1]] 5) (.inl (by simp [exChan, List.range_succ])) _ _ rfl (by decide) rfl [_] [_] _ hl
    (by
      intro x hx c hc
      obtain rfl := List.mem_singleton.mp hx
      cases Except.ok.inj hc
      rfl)
    (by
      intro c hc
      cases Except.ok.inj hc
      rfl) _ rfl
  have e0 : st0' = st0 := Except.ok.inj (g1.symm.trans h1)
  subst e0
  have e1 : st2 = st := Except.ok.inj (g2.symm.trans h2)
  subst e1
  refine ⟨st0', st2, st', st'', a, b, h1, h2, h4, h6, ?_, g4, ?_⟩
  · match hc : st'.base.cons, h5 with
    | [x, y, z], .cons hx (.cons hy (.cons hz .nil)) =>
      obtain ⟨x1, x2⟩ := x
      obtain ⟨y1, y2⟩ := y
      obtain ⟨z1, z2⟩ := z
      obtain ⟨-, rfl, hx⟩ := hx
      obtain ⟨-, rfl, hy⟩ := hy
      obtain ⟨-, rfl, hz⟩ := hz
      cases Except.ok.inj hx
      cases Except.ok.inj hy
      cases Except.ok.inj hz
      rfl
  · match hc : st''.base.cons, g5 with
    | [x, y, z], .cons hx (.cons hy (.cons hz .nil)) =>
      obtain ⟨x1, x2⟩ := x
      obtain ⟨y1, y2⟩ := y
      obtain ⟨z1, z2⟩ := z
      obtain ⟨-, rfl, hx⟩ := hx
      obtain ⟨-, rfl, hy⟩ := hy
      obtain ⟨-, rfl, hz⟩ := hz
      cases Except.ok.inj hx
      cases Except.ok.inj hy
      cases Except.ok.inj hz
      rfl

end Verif
