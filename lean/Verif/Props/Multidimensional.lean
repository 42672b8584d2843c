import Verif.Model.Multidimensional
import Verif.Lemmas.SortedSums
import Verif.Lemmas.Grid

/-!
# `MultidimensionalMatrixProfileLR`: C53, C54
-/

namespace Verif
open Spec
variable {K : Type} [Field K] [LinearOrder K]

/-- Distances delivered for one pair of subsequences: stream row, stream column and one distance per channel. -/
structure Spec.MCell (K : Type) where
  row : Int
  col : Int
  vec : List (Fl K)

/-- Calls made to a consumer of several channels; for every position the distances of all channels. -/
inductive Spec.MDelivery (K : Type)
  | diag (d : Int) (vals : List (List (Fl K)))
  | column (c : Nat) (vals : List (List (Fl K)))
  | shiftSeries (n : Nat)
  | shiftQuery (n : Nat)

/-- Cells delivered by a call when the window starts at stream column `ss` and stream row `qs`. -/
def Spec.MDelivery.cells (ss qs : Nat) : MDelivery K → Set (MCell K)
  | .diag d vals => {x | ∃ k : Nat, vals[k]? = some x.vec ∧ x.row = (((-d).toNat + k + qs : Nat) : Int) ∧ x.col = ((d.toNat + k + ss : Nat) : Int)}
  | .column c vals => {x | ∃ k : Nat, vals[k]? = some x.vec ∧ x.row = ((k + qs : Nat) : Int) ∧ x.col = ((c + ss : Nat) : Int)}
  | _ => ∅

/-- Everything seen: position of the window and cells delivered. -/
structure Spec.MSeen (K : Type) where
  ss : Nat
  qs : Nat
  cells : Set (MCell K)

/-- Nothing seen yet. -/
def Spec.MSeen.init : MSeen K := ⟨0, 0, ∅⟩

/-- Effect of a call. -/
def Spec.MSeen.step (t : MSeen K) : MDelivery K → MSeen K
  | .shiftSeries n => { t with ss := t.ss + n }
  | .shiftQuery n => { t with qs := t.qs + n }
  | d => { t with cells := t.cells ∪ d.cells t.ss t.qs }

/-- Effect of a sequence of calls. -/
def Spec.MSeen.run (t : MSeen K) (ds : List (MDelivery K)) : MSeen K := ds.foldl MSeen.step t

/-- Cells delivered for stream column `c`, on or above the main diagonal (`left`) or below it. -/
def Spec.MSeen.sel (t : MSeen K) (left : Bool) (c : Int) : Set (MCell K) := {x | x ∈ t.cells ∧ x.col = c ∧ decide (x.row ≤ x.col) = left}

/-- `n` different channels out of `D`. -/
structure Spec.Channels (D n : Nat) (T : List Nat) : Prop where
  nodup : T.Nodup
  length : T.length = n
  lt : ∀ i ∈ T, i < D

/-- Mean distance over the channels `T`. -/
def Spec.chanMean (vec : List (Fl K)) (T : List Nat) : Fl K := Fl.div (Fl.sum (chan vec T)) (.fin (T.length : K))

/-- `e` = (value, row, dimensions): the value is the minimum over the cells and over all choices of `k + 1` of the `D` channels of the mean distance, row and
dimensions attain it; `+inf`, -1 and -1s if there is nothing below `+inf`. -/
structure Spec.IsMDMin (D k : Nat) (P : Set (MCell K)) (e : Fl K × Int × List Int) : Prop where
  number : e.1 ≠ .nan
  lower : ∀ x ∈ P, ∀ T, Channels D (k + 1) T → e.1 ≤ chanMean x.vec T
  attained : (e.1 = .pinf ∧ e.2.1 = -1 ∧ e.2.2 = List.replicate (k + 1) (-1)) ∨
    (e.1 < .pinf ∧ ∃ x ∈ P, ∃ T : List Nat, Channels D (k + 1) T ∧ x.row = e.2.1 ∧ e.2.2 = T.map (fun i : Nat => (i : Int)) ∧ e.1 = chanMean x.vec T)

/-- Keep the better one. -/
def pickT (cur new : Fl K × Int × List Int) : Fl K × Int × List Int := if Fl.ltF new.1 cur.1 then new else cur

/-- `e` is the best of the cells `N` (if it is below `+inf`). -/
structure Cand (D k : Nat) (N : Set (MCell K)) (e : Fl K × Int × List Int) : Prop where
  lower : ∀ x ∈ N, ∀ T, Channels D (k + 1) T → e.1 ≤ chanMean x.vec T
  attained : ∃ x ∈ N, ∃ T : List Nat, Channels D (k + 1) T ∧ x.row = e.2.1 ∧ e.2.2 = T.map (fun i : Nat => (i : Int)) ∧ e.1 = chanMean x.vec T

theorem Spec.IsMDMin.step {D k : Nat} {P N : Set (MCell K)} {e e' : Fl K × Int × List Int} (h : IsMDMin D k P e) (h' : Cand D k N e') :
    IsMDMin D k (P ∪ N) (pickT e e') := by
  unfold pickT
  by_cases hlt : Fl.ltF e'.1 e.1 = true
  · rw [if_pos hlt]
    obtain ⟨h1, -⟩ := (Fl.ltF_iff _ _).mp hlt
    have hp : e.1 ≤ .pinf := (Fl.le_pinf_iff _).mpr h.number
    refine ⟨fun hn => ?_, ?_, .inr ⟨lt_of_lt_of_le h1 hp, ?_⟩⟩
    · rw [hn] at h1
      exact absurd (lt_of_lt_of_le h1 (Fl.le_nan _)) (lt_irrefl _)
    · rintro x (hx | hx) T hT
      · exact le_trans h1.le (h.lower x hx T hT)
      · exact h'.lower x hx T hT
    · obtain ⟨x, hx, r⟩ := h'.attained
      exact ⟨x, .inr hx, r⟩
  · rw [if_neg hlt]
    rw [Bool.not_eq_true, Fl.ltF_false_iff _ _ h.number] at hlt
    refine ⟨h.number, ?_, ?_⟩
    · rintro x (hx | hx) T hT
      · exact h.lower x hx T hT
      · exact le_trans hlt (h'.lower x hx T hT)
    · rcases h.attained with h1 | ⟨h1, x, hx, r⟩
      · exact .inl h1
      · exact .inr ⟨h1, x, .inl hx, r⟩

/-! ### The buffers -/

namespace MDSide

/-- A side holding `F`. -/
structure Rep (s : MDSide K) (D w : Nat) (F : Nat → Nat → Fl K × Int × List Int) : Prop where
  mp : s.mp.Grid D w (fun k c => (F k c).1)
  pi : s.pi.Grid D w (fun k c => (F k c).2.1)
  len : s.dm.length = D
  dm : ∀ k < D, ∃ rb, s.dm[k]? = some rb ∧ rb.Good w ∧ rb.lead = [k + 1] ∧ rb.items = (List.range w).map fun c => (F k c).2.2

/-- A side holding the minima of the sets `P`. -/
def Inv (s : MDSide K) (D w : Nat) (P : Nat → Nat → Set (MCell K)) : Prop := ∃ F, s.Rep D w F ∧ ∀ k < D, ∀ c < w, IsMDMin D k (P k c) (F k c)

theorem Inv.congr {s : MDSide K} {D w : Nat} {P P' : Nat → Nat → Set (MCell K)} (h : s.Inv D w P) (he : ∀ k < D, ∀ c < w, P k c = P' k c) : s.Inv D w P' := by
  obtain ⟨F, h1, h2⟩ := h
  exact ⟨F, h1, fun k hk c hc => he k hk c hc ▸ h2 k hk c hc⟩

theorem Rep.set_dm {s : MDSide K} {D w : Nat} {F F' : Nat → Nat → Fl K × Int × List Int} (h : s.Rep D w F) (k : Nat) (hk : k < D) (rb' : RB (List Int)) (hg : rb'.Good w)
    (hl : rb'.lead = [k + 1]) (hit : rb'.items = (List.range w).map fun c => (F' k c).2.2) (hF : ∀ k' < D, k' ≠ k → ∀ c < w, (F' k' c).2.2 = (F k' c).2.2) :
    ∃ dm', pySet s.dm (k : Int) rb' = .ok dm' ∧ dm'.length = D ∧
      ∀ k' < D, ∃ rb, dm'[k']? = some rb ∧ rb.Good w ∧ rb.lead = [k' + 1] ∧ rb.items = (List.range w).map fun c => (F' k' c).2.2 := by
  refine ⟨s.dm.set k rb', (pySet_nat_ok _ _ _ _).mpr ⟨by rw [h.len]; exact hk, rfl⟩, by simp [h.len], fun k' hk' => ?_⟩
  by_cases e : k' = k
  · subst e
    exact ⟨rb', by rw [List.getElem?_set_self (by rw [h.len]; exact hk)], hg, hl, hit⟩
  · obtain ⟨rb, h1, h2, h3, h4⟩ := h.dm k' hk'
    refine ⟨rb, by rw [List.getElem?_set_ne (Ne.symm e)]; exact h1, h2, h3, h4.trans (List.map_congr_left fun c hc => ?_)⟩
    exact (hF k' hk' e c (List.mem_range.mp hc)).symm

/-- One side of a column for one dimension. -/
theorem column_rep {s : MDSide K} {D w : Nat} {F : Nat → Nat → Fl K × Int × List Int} (h : s.Rep D w F) (argsort : List (Fl K) → List Nat) (k : Nat) (hk : k < D) (c : Nat)
    (hc : c < w) (vals : List (List (Fl K))) (cum part : List (Fl K)) (lo qs : Nat) (hne : part ≠ []) (hn : Fl.nan ∉ part)
    (hpart : ∀ j x, part[j]? = some x → cum[lo + j]? = some x) (hlen : cum.length = vals.length) :
    ∃ s' j x vec, s.column argsort k c vals cum part lo qs = .ok s' ∧ part[j]? = some x ∧ vals[lo + j]? = some vec ∧ (∀ y ∈ part, x ≤ y) ∧
      s'.Rep D w (fun k' c' => if k' = k ∧ c' = c then pickT (F k c) (Fl.div x (.fin ((k : K) + 1)), ((lo + j + qs : Nat) : Int), ((argsort vec).take (k + 1)).map fun i : Nat => (i : Int))
        else F k' c') := by
  obtain ⟨j, e1, hj, -, -, hmin⟩ := npArgmin_spec part hne
  obtain ⟨hmin, -⟩ := hmin hn
  have hx := hpart j part[j] (List.getElem?_eq_getElem hj)
  have hjl : lo + j < vals.length := by rw [← hlen]; exact (List.getElem?_eq_some_iff.mp hx).1
  have e2 : pyGet cum ((j : Int) + lo) = .ok part[j] := by
    rw [show (j : Int) + lo = ((lo + j : Nat) : Int) by omega]; exact (pyGet_nat_ok _ _ _).mpr hx
  have e3 := h.mp.get k c hk hc
  have e4 : pyGet vals ((j : Int) + lo) = .ok vals[lo + j] := by
    rw [show (j : Int) + lo = ((lo + j : Nat) : Int) by omega]; exact (pyGet_nat_ok _ _ _).mpr (List.getElem?_eq_getElem hjl)
  set new : Fl K × Int × List Int := (Fl.div part[j] (.fin ((k : K) + 1)), ((lo + j + qs : Nat) : Int), ((argsort vals[lo + j]).take (k + 1)).map fun i : Nat => (i : Int)) with hnew
  have hfin : ∀ s' : MDSide K, s'.Rep D w (fun k' c' => if k' = k ∧ c' = c then pickT (F k c) new else F k' c') → s.column argsort k c vals cum part lo qs = .ok s' →
      ∃ s' i x vec, s.column argsort k c vals cum part lo qs = .ok s' ∧ part[i]? = some x ∧ vals[lo + i]? = some vec ∧ (∀ y ∈ part, x ≤ y) ∧
      s'.Rep D w (fun k' c' => if k' = k ∧ c' = c then pickT (F k c) (Fl.div x (.fin ((k : K) + 1)), ((lo + i + qs : Nat) : Int), ((argsort vec).take (k + 1)).map fun i : Nat => (i : Int))
        else F k' c') := by
    intro s' h1 h2
    refine ⟨s', j, part[j], vals[lo + j], h2, List.getElem?_eq_getElem hj, List.getElem?_eq_getElem hjl, ?_, h1⟩
    intro y hy
    obtain ⟨i, hi, rfl⟩ := List.mem_iff_getElem.mp hy
    exact hmin i hi
  by_cases hlt : Fl.ltF new.1 (F k c).1 = true
  · obtain ⟨rm, f1, f2⟩ := h.mp.set k c hk hc new.1
    obtain ⟨ri, f3, f4⟩ := h.pi.set k c hk hc new.2.1
    obtain ⟨rb, f5, f6, f7, f8⟩ := h.dm k hk
    have f9 := pySet_range_map w (fun c => (F k c).2.2) c hc new.2.2
    rw [← f8] at f9
    obtain ⟨rb', g1, g2, g3, g4⟩ := f6.setItem_lead f9
    obtain ⟨dm', g5, g6, g7⟩ := h.set_dm (F' := fun k' c' => if k' = k ∧ c' = c then new else F k' c') k hk rb' g2 (g4.trans f7) (by
      rw [g3]
      refine List.map_congr_left fun c' _ => ?_
      by_cases e : c' = c <;> simp [e]) (by
      intro k' _ hne c' _
      simp [hne])
    refine hfin ⟨rm, ri, dm'⟩ ?_ ?_
    · have hp : pickT (F k c) new = new := by unfold pickT; rw [if_pos hlt]
      rw [hp]
      refine ⟨f2.congr ?_, f4.congr ?_, g6, g7⟩
      · intro a _ b _
        by_cases e : a = k ∧ b = c <;> simp [e]
      · intro a _ b _
        by_cases e : a = k ∧ b = c <;> simp [e]
    · unfold column
      simp only [e1, bind, Except.bind, e2, e3]
      rw [if_pos hlt]
      have f3' : s.pi.setEntry k c ((j : Int) + lo + qs) = .ok ri := by
        rw [← f3]; congr 1; simp only [hnew]; push_cast; ring
      have f5' : pyGet s.dm (k : Int) = .ok rb := (pyGet_nat_ok _ _ _).mpr f5
      simp only [show s.mp.setEntry k c (Fl.div part[j] (.fin ((k : K) + 1))) = .ok rm from f1, f3', f5', e4,
        show rb.setItem c (((argsort vals[lo + j]).take (k + 1)).map fun i : Nat => (i : Int)) = .ok rb' from g1, g5]
      rfl
  · refine hfin s ?_ ?_
    · have hp : pickT (F k c) new = F k c := by unfold pickT; rw [if_neg hlt]
      rw [hp]
      have : (fun k' c' => if k' = k ∧ c' = c then F k c else F k' c') = F := by
        funext k' c'
        split
        · next e => rw [e.1, e.2]
        · rfl
      rw [this]; exact h
    · unfold column
      simp only [e1, bind, Except.bind, e2, e3]
      rw [if_neg hlt]
      rfl

theorem slice_range_map {α : Type} (w a n : Nat) (f : Nat → α) (h : a + n ≤ w) :
    pySlice ((List.range w).map f) (a : Int) ((a : Int) + n) = (List.range n).map fun t => f (a + t) := by
  rw [pySlice_nat_add]
  apply List.ext_getElem?
  intro i
  rw [List.getElem?_take]
  rcases Nat.lt_or_ge i n with hi | hi
  · rw [if_pos hi, List.getElem?_drop, List.getElem?_map, List.getElem?_map, List.getElem?_range (by omega), List.getElem?_range hi]
    rfl
  · rw [if_neg (by omega), List.getElem?_eq_none (by simpa using hi)]

theorem assign_range_map {α : Type} (w a n : Nat) (f g : Nat → α) (h : a + n ≤ w) :
    pyAssign ((List.range w).map f) (a : Int) ((a : Int) + n) ((List.range n).map g) =
      .ok ((List.range w).map fun c => if a ≤ c ∧ c < a + n then g (c - a) else f c) := by
  rw [pyAssign_ok_add _ _ _ _ (by simp) (by simpa using h)]
  congr 1
  apply List.ext_getElem?
  intro i
  simp only [List.getElem?_append, List.getElem?_take, List.length_append, List.length_take, List.length_map, List.length_range, List.getElem?_drop, List.getElem?_map]
  rcases Nat.lt_or_ge i w with hi | hi
  · rw [List.getElem?_range hi]
    by_cases h1 : a ≤ i
    · by_cases h2 : i < a + n
      · have h4 : i - min a w < n := by omega
        rw [if_pos (by omega), if_neg (by omega), List.getElem?_range h4]
        simp [h1, h2, Nat.min_eq_left (show a ≤ w by omega)]
      · rw [if_neg (by omega), List.getElem?_range (by omega)]
        simp only [Option.map_some, h1, h2, and_false, if_false]
        congr 2; omega
    · rw [if_pos (by omega), if_pos (by omega), if_pos (by omega)]
      simp [h1]
  · have : ¬ i < a + n := by omega
    rw [if_neg (by omega), List.getElem?_eq_none (by simp; omega), List.getElem?_eq_none (by simpa using hi)]
    rfl

theorem setSlice_lead {α : Type} {rb : RB α} {N : Nat} (h : rb.Good N) {a b : Int} {vals w : List α} (hp : pyAssign rb.items a b vals = .ok w) :
    ∃ rb', rb.setSlice a b vals = .ok rb' ∧ rb'.Good N ∧ rb'.items = w ∧ rb'.lead = rb.lead := by
  have := RB.setSlice_spec rb h.wf a b vals
  rw [hp] at this
  obtain ⟨rb', h1, h2, h3, h4, h6, h5, -⟩ := this
  exact ⟨rb', h1, ⟨h2, by rw [h4, h.vmax], by rw [h5]; exact h.mem⟩, h3, h6⟩

/-- Writing selected entries of row `k`, columns `a` to `a + n`. -/
theorem grid_write {α : Type} {rb : RB (List α)} {D w : Nat} {f : Nat → Nat → α} (h : rb.Grid D w f) (k : Nat) (hk : k < D) (a n : Nat) (ha : a + n ≤ w) (u : Nat → Bool) (g : Nat → α) :
    ∃ cols rb', ((((List.range n).map u).zip ((List.range n).map g)).zip (pySlice rb.items (a : Int) ((a : Int) + n))).mapM
        (fun x => if x.1.1 then pySet x.2 (k : Int) x.1.2 else .ok x.2) = .ok cols ∧ rb.setSlice (a : Int) ((a : Int) + n) cols = .ok rb' ∧
      rb'.Grid D w (fun i c => if i = k ∧ a ≤ c ∧ c < a + n then (if u (c - a) then g (c - a) else f i c) else f i c) := by
  have e1 : pySlice rb.items (a : Int) ((a : Int) + n) = (List.range n).map fun t => (List.range D).map fun i => f i (a + t) := by
    rw [h.items, gridCols, slice_range_map _ _ _ _ ha]
  have e2 : ((((List.range n).map u).zip ((List.range n).map g)).zip (pySlice rb.items (a : Int) ((a : Int) + n))).mapM
        (fun x => if x.1.1 then pySet x.2 (k : Int) x.1.2 else .ok x.2) =
      .ok ((List.range n).map fun t => (List.range D).map fun i => if i = k then (if u t then g t else f i (a + t)) else f i (a + t)) := by
    rw [e1, List.zip_map', List.zip_map', List.mapM_map, mapM_ok_map]
    intro t _
    by_cases hu : u t = true
    · simp only [hu, if_true, Function.comp]
      exact pySet_range_map D (fun i => f i (a + t)) k hk (g t)
    · simp [hu]
  have e3 := assign_range_map w a n (fun c => (List.range D).map fun i => f i c)
    (fun t => (List.range D).map fun i => if i = k then (if u t then g t else f i (a + t)) else f i (a + t)) ha
  rw [show (List.range w).map (fun c => (List.range D).map fun i => f i c) = rb.items from h.items.symm] at e3
  obtain ⟨rb', g1, g2, g3, g4⟩ := setSlice_lead h.good e3
  refine ⟨_, rb', e2, g1, g2, by rw [g4, h.lead], ?_⟩
  rw [g3]
  apply List.map_congr_left
  intro c _
  by_cases hc : a ≤ c ∧ c < a + n
  · rw [if_pos hc]
    apply List.map_congr_left
    intro i _
    simp only [hc, and_true, show a + (c - a) = c by omega]
  · rw [if_neg hc]
    apply List.map_congr_left
    intro i _
    simp [hc]

/-- `_update_matrix_profile` writes the better entries. -/
theorem update_rep {s : MDSide K} {D w : Nat} {F : Nat → Nat → Fl K × Int × List Int} (h : s.Rep D w F) (k : Nat) (hk : k < D) (a n : Nat) (ha : a + n ≤ w)
    (G : Nat → Fl K × Int × List Int) :
    ∃ s', s.update k ((List.range n).map fun t => (G t).1) ((List.range n).map fun t => (G t).2.1) ((List.range n).map fun t => (G t).2.2) a ((a : Int) + n) = .ok s' ∧
      s'.Rep D w (fun k' c => if k' = k ∧ a ≤ c ∧ c < a + n then pickT (F k' c) (G (c - a)) else F k' c) := by
  obtain ⟨rb, f5, f6, f7, f8⟩ := h.dm k hk
  have f5' : pyGet s.dm (k : Int) = .ok rb := (pyGet_nat_ok _ _ _).mpr f5
  have e1 : pySlice s.mp.items (a : Int) ((a : Int) + n) = (List.range n).map fun t => (List.range D).map fun i => (F i (a + t)).1 := by
    rw [h.mp.items, gridCols, slice_range_map _ _ _ _ ha]
  have e3 : pySlice rb.items (a : Int) ((a : Int) + n) = (List.range n).map fun t => (F k (a + t)).2.2 := by
    rw [f8, slice_range_map _ _ _ _ ha]
  have e4 : (pySlice s.mp.items (a : Int) ((a : Int) + n)).mapM (fun x => pyGet x (k : Int)) = .ok ((List.range n).map fun t => (F k (a + t)).1) := by
    rw [e1, List.mapM_map, mapM_ok_map _ (fun t => (F k (a + t)).1)]
    intro t _
    exact pyGet_range_map D (fun i => (F i (a + t)).1) k hk
  have e5 : npZip Fl.ltF ((List.range n).map fun t => (G t).1) ((List.range n).map fun t => (F k (a + t)).1) =
      .ok ((List.range n).map fun t => Fl.ltF (G t).1 (F k (a + t)).1) := by
    rw [npZip_ok _ _ _ (by simp), List.zipWith_map, List.zipWith_self]
  obtain ⟨c1, rm, g1, g2, g3⟩ := grid_write h.mp k hk a n ha (fun t => Fl.ltF (G t).1 (F k (a + t)).1) (fun t => (G t).1)
  obtain ⟨c2, ri, g4, g5, g6⟩ := grid_write h.pi k hk a n ha (fun t => Fl.ltF (G t).1 (F k (a + t)).1) (fun t => (G t).2.1)
  have e6 : ((((List.range n).map fun t => Fl.ltF (G t).1 (F k (a + t)).1).zip ((List.range n).map fun t => (G t).2.2)).zip (pySlice rb.items (a : Int) ((a : Int) + n))).map
      (fun x => if x.1.1 then x.1.2 else x.2) = (List.range n).map fun t => if Fl.ltF (G t).1 (F k (a + t)).1 then (G t).2.2 else (F k (a + t)).2.2 := by
    rw [e3, List.zip_map', List.zip_map', List.map_map]
    rfl
  have e7 := assign_range_map w a n (fun c => (F k c).2.2) (fun t => if Fl.ltF (G t).1 (F k (a + t)).1 then (G t).2.2 else (F k (a + t)).2.2) ha
  rw [← f8] at e7
  obtain ⟨rb', i1, i2, i3, i4⟩ := setSlice_lead f6 e7
  have hpick : ∀ c, a ≤ c → pickT (F k c) (G (c - a)) = if Fl.ltF (G (c - a)).1 (F k (a + (c - a))).1 then G (c - a) else F k c := by
    intro c hc
    rw [show a + (c - a) = c by omega]; rfl
  obtain ⟨dm', j1, j2, j3⟩ := h.set_dm (F' := fun k' c => if k' = k ∧ a ≤ c ∧ c < a + n then pickT (F k' c) (G (c - a)) else F k' c) k hk rb' i2 (i4.trans f7) (by
    rw [i3]
    refine List.map_congr_left fun c _ => ?_
    by_cases hc : a ≤ c ∧ c < a + n
    · simp only [hc, and_true, if_true]
      rw [hpick c hc.1, show a + (c - a) = c by omega]
      split <;> rfl
    · simp [hc]) (by
    intro k' _ hne c _
    simp [hne])
  refine ⟨⟨rm, ri, dm'⟩, ?_, g3.congr ?_, g6.congr ?_, j2, j3⟩
  · unfold update
    simp only [bind, Except.bind, f5', e4, e5]
    rw [if_pos (by simp)]
    simp only [g1, g4, g2, g5, e6, i1, j1]
    rfl
  · intro i _ c _
    by_cases hc : i = k ∧ a ≤ c ∧ c < a + n
    · obtain ⟨rfl, hc⟩ := hc
      simp only [hc, and_true, if_true]
      rw [hpick c hc.1]
      split <;> rfl
    · simp only [hc, if_false]
  · intro i _ c _
    by_cases hc : i = k ∧ a ≤ c ∧ c < a + n
    · obtain ⟨rfl, hc⟩ := hc
      simp only [hc, and_true, if_true]
      rw [hpick c hc.1]
      split <;> rfl
    · simp only [hc, if_false]

/-! ### Means of the smallest channels -/

variable [IsStrictOrderedRing K]

/-- Mean of the `k + 1` smallest values. -/
def smallMean (k : Nat) (vec : List (Fl K)) : Fl K := Fl.div (Fl.sum ((npSort vec).take (k + 1))) (.fin ((k : K) + 1))

theorem smallMean_le (D k : Nat) (vec : List (Fl K)) (hD : vec.length = D) (hv : ∀ x ∈ vec, x ≠ .ninf) (T : List Nat) (hT : Channels D (k + 1) T) :
    smallMean k vec ≤ chanMean vec T := by
  have h1 := smallest_le vec hv T hT.nodup (by rw [hD]; exact hT.lt)
  unfold smallMean chanMean
  rw [hT.length] at h1 ⊢
  push_cast
  exact Fl.div_le_div' k h1

omit [IsStrictOrderedRing K] in
theorem smallMean_attained (D k : Nat) (hk : k < D) (vec : List (Fl K)) (hD : vec.length = D) (o : List Nat) (ho : IsArgsort vec o) :
    Channels D (k + 1) (o.take (k + 1)) ∧ smallMean k vec = chanMean vec (o.take (k + 1)) := by
  have hl : o.length = D := by rw [ho.1.length_eq, List.length_range, hD]
  have hlen : (o.take (k + 1)).length = k + 1 := by rw [List.length_take]; omega
  have hnd : o.Nodup := ho.1.nodup_iff.mpr List.nodup_range
  refine ⟨⟨hnd.sublist (List.take_sublist _ _), hlen, fun i hi => ?_⟩, ?_⟩
  · rw [← hD]; exact List.mem_range.mp (ho.1.mem_iff.mp (List.mem_of_mem_take hi))
  · unfold smallMean chanMean
    rw [hlen, ← argsort_sorted vec o ho]
    push_cast
    unfold chan
    rw [List.map_take]

omit [IsStrictOrderedRing K] in
theorem npSort_get (vec : List (Fl K)) (k : Nat) (hk : k < vec.length) : ∃ x, (npSort vec)[k]? = some x := by
  have : (npSort vec).length = vec.length := List.length_insertionSort _ _
  exact ⟨_, List.getElem?_eq_getElem (by omega)⟩

omit [IsStrictOrderedRing K] in
/-- One loop of `process_diagonal`, with a running sum that starts from `base`. -/
theorem loop_rep (D w a n : Nat) (ha : a + n ≤ w) (v : Nat → List (Fl K)) (hv : ∀ t < n, (v t).length = D) (ord : Nat → List Int) (ρ : Nat → Int) (base : Nat → Fl K) :
    ∀ (m d : Nat) (_ : d + m ≤ D) (s : MDSide K) (F : Nat → Nat → Fl K × Int × List Int), s.Rep D w F →
    ∃ s', s.loop ((List.range n).map fun t => npSort (v t)) ((List.range n).map ord) ((List.range n).map ρ) a ((a : Int) + n)
        ((List.range n).map fun t => Fl.add (base t) (Fl.sum ((npSort (v t)).take d))) (List.range' d m) =
          .ok (s', (List.range n).map fun t => Fl.add (base t) (Fl.sum ((npSort (v t)).take (d + m)))) ∧
      s'.Rep D w (fun k c => if d ≤ k ∧ k < d + m ∧ a ≤ c ∧ c < a + n then
        pickT (F k c) (Fl.div (Fl.add (base (c - a)) (Fl.sum ((npSort (v (c - a))).take (k + 1)))) (.fin ((k : K) + 1)), ρ (c - a), (ord (c - a)).take (k + 1)) else F k c)
  | 0, d, _, s, F, h => by
    refine ⟨s, rfl, ?_⟩
    have : (fun k c => if d ≤ k ∧ k < d + 0 ∧ a ≤ c ∧ c < a + n then
        pickT (F k c) (Fl.div (Fl.add (base (c - a)) (Fl.sum ((npSort (v (c - a))).take (k + 1)))) (.fin ((k : K) + 1)), ρ (c - a), (ord (c - a)).take (k + 1)) else F k c) = F := by
      funext k c
      rw [if_neg (by omega)]
    rw [this]; exact h
  | m + 1, d, hdm, s, F, h => by
    set x : Nat → Fl K := fun t => (npSort (v t)).getD d .nan with hx
    have hget : ∀ t < n, (npSort (v t))[d]? = some (x t) := by
      intro t ht
      obtain ⟨y, hy⟩ := npSort_get (v t) d (by rw [hv t ht]; omega)
      rw [hy, hx]
      simp [List.getD, hy]
    have e1 : ((List.range n).map fun t => npSort (v t)).mapM (fun l => pyGet l (d : Int)) = .ok ((List.range n).map x) := by
      rw [List.mapM_map, mapM_ok_map _ x]
      intro t ht
      exact (pyGet_nat_ok _ _ _).mpr (hget t (List.mem_range.mp ht))
    have e2 : List.zipWith Fl.add ((List.range n).map fun t => Fl.add (base t) (Fl.sum ((npSort (v t)).take d))) ((List.range n).map x) =
        (List.range n).map fun t => Fl.add (base t) (Fl.sum ((npSort (v t)).take (d + 1))) := by
      rw [List.zipWith_map, List.zipWith_self]
      refine List.map_congr_left fun t ht => ?_
      rw [Fl.add_assoc', Fl.sum_take_succ _ _ _ (hget t (List.mem_range.mp ht))]
    obtain ⟨s1, e3, h1⟩ := update_rep h d (by omega) a n ha
      (fun t => (Fl.div (Fl.add (base t) (Fl.sum ((npSort (v t)).take (d + 1)))) (.fin ((d : K) + 1)), ρ t, (ord t).take (d + 1)))
    obtain ⟨s2, e4, h2⟩ := loop_rep D w a n ha v hv ord ρ base m (d + 1) (by omega) s1 _ h1
    refine ⟨s2, ?_, ?_⟩
    · rw [List.range'_succ, loop]
      simp only [e1, bind, Except.bind, e2, List.map_map, Function.comp_def]
      simp only at e3
      rw [e3]
      simp only
      rw [e4, show d + 1 + m = d + (m + 1) by omega]
    · have : (fun k c => if d ≤ k ∧ k < d + (m + 1) ∧ a ≤ c ∧ c < a + n then
          pickT (F k c) (Fl.div (Fl.add (base (c - a)) (Fl.sum ((npSort (v (c - a))).take (k + 1)))) (.fin ((k : K) + 1)), ρ (c - a), (ord (c - a)).take (k + 1)) else F k c) =
          (fun k c => if d + 1 ≤ k ∧ k < d + 1 + m ∧ a ≤ c ∧ c < a + n then
          pickT ((fun k' c => if k' = d ∧ a ≤ c ∧ c < a + n then pickT (F k' c) ((fun t => (Fl.div (Fl.add (base t) (Fl.sum ((npSort (v t)).take (d + 1)))) (.fin ((d : K) + 1)), ρ t, (ord t).take (d + 1))) (c - a)) else F k' c) k c) (Fl.div (Fl.add (base (c - a)) (Fl.sum ((npSort (v (c - a))).take (k + 1)))) (.fin ((k : K) + 1)), ρ (c - a), (ord (c - a)).take (k + 1)) else
            (fun k' c => if k' = d ∧ a ≤ c ∧ c < a + n then pickT (F k' c) ((fun t => (Fl.div (Fl.add (base t) (Fl.sum ((npSort (v t)).take (d + 1)))) (.fin ((d : K) + 1)), ρ t, (ord t).take (d + 1))) (c - a)) else F k' c) k c) := by
        funext k c
        by_cases hc : a ≤ c ∧ c < a + n
        · rcases Nat.lt_trichotomy k d with hk | rfl | hk
          · rw [if_neg (by omega), if_neg (by omega)]
            simp only
            rw [if_neg (by omega)]
          · rw [if_pos (by omega), if_neg (by omega)]
            simp only [hc, and_true, if_true]
          · by_cases hk2 : k < d + (m + 1)
            · rw [if_pos (by omega), if_pos (by omega)]
              simp only
              rw [if_neg (by omega)]
            · rw [if_neg (by omega), if_neg (by omega)]
              simp only
              rw [if_neg (by omega)]
        · simp [hc]
      rw [this]; exact h2

end MDSide

namespace MDMP
variable [IsStrictOrderedRing K]

/-- One side of a column, all dimensions. -/
theorem column_inv {s : MDSide K} {D w : Nat} {P : Nat → Nat → Set (MCell K)} (h : s.Inv D w P) (argsort : List (Fl K) → List Nat) (has : ∀ l, IsArgsort l (argsort l))
    (k : Nat) (hk : k < D) (c : Nat) (hc : c < w) (n : Nat) (v : Nat → List (Fl K)) (hv : ∀ t < n, (v t).length = D ∧ ∀ x ∈ v t, x ≠ .ninf ∧ x ≠ .nan)
    (lo num qs ss : Nat) (hnum : 0 < num) (hln : lo + num ≤ n) :
    ∃ s', s.column argsort k c ((List.range n).map v) ((List.range n).map fun t => Fl.sum ((npSort (v t)).take (k + 1)))
        ((List.range num).map fun t => Fl.sum ((npSort (v (lo + t))).take (k + 1))) lo qs = .ok s' ∧
      s'.Inv D w (fun k' c' => if k' = k ∧ c' = c then P k' c' ∪ {x | ∃ t < num, x.vec = v (lo + t) ∧ x.row = ((lo + t + qs : Nat) : Int) ∧ x.col = ((c + ss : Nat) : Int)} else P k' c') := by
  obtain ⟨F, h1, h2⟩ := h
  have hq : ∀ t < n, ∀ y ∈ (npSort (v t)).take (k + 1), y ≠ .ninf ∧ y ≠ .nan := fun t ht y hy =>
    (hv t ht).2 y ((List.perm_insertionSort _ _).mem_iff.mp (List.mem_of_mem_take hy))
  obtain ⟨s', j, x, vec, e1, e2, e3, e4, e5⟩ := MDSide.column_rep h1 argsort k hk c hc ((List.range n).map v) ((List.range n).map fun t => Fl.sum ((npSort (v t)).take (k + 1)))
    ((List.range num).map fun t => Fl.sum ((npSort (v (lo + t))).take (k + 1))) lo qs (by simp; omega) (by
      intro hm
      obtain ⟨t, ht, he⟩ := List.mem_map.mp hm
      exact Fl.sum_ne_nan _ (hq _ (by have := List.mem_range.mp ht; omega)) he) (by
      intro j x hx
      have hj : j < num := by simpa using (List.getElem?_eq_some_iff.mp hx).1
      rw [List.getElem?_map, List.getElem?_range hj] at hx
      rw [List.getElem?_map, List.getElem?_range (by omega)]
      exact hx) (by simp)
  have hj : j < num := by simpa using (List.getElem?_eq_some_iff.mp e2).1
  rw [List.getElem?_map, List.getElem?_range hj] at e2
  rw [List.getElem?_map, List.getElem?_range (by omega)] at e3
  obtain rfl := Option.some.inj e2
  obtain rfl := Option.some.inj e3
  refine ⟨s', e1, _, e5, fun k' hk' c' hc' => ?_⟩
  by_cases hkc : k' = k ∧ c' = c
  · obtain ⟨rfl, rfl⟩ := hkc
    simp only [and_self, if_true]
    refine (h2 k' hk' c' hc').step ⟨?_, ?_⟩
    · rintro y ⟨t, ht, hy, -, -⟩ T hT
      have h3 := e4 _ (List.mem_map.mpr ⟨t, List.mem_range.mpr ht, rfl⟩)
      refine le_trans (Fl.div_le_div' k' h3) ?_
      rw [hy]
      exact MDSide.smallMean_le D k' (v (lo + t)) (hv _ (by omega)).1 (fun x hx => ((hv _ (by omega)).2 x hx).1) T hT
    · obtain ⟨h4, h5⟩ := MDSide.smallMean_attained D k' hk' (v (lo + j)) (hv _ (by omega)).1 _ (has (v (lo + j)))
      exact ⟨⟨((lo + j + qs : Nat) : Int), ((c' + ss : Nat) : Int), v (lo + j)⟩, ⟨j, hj, rfl, rfl, rfl⟩, _, h4, rfl, rfl, h5⟩
  · simp only [hkc, if_false]
    exact h2 k' hk' c' hc'

/-- New cells of a column, rows `lo` up to `hi`. -/
def newCells (v : Nat → List (Fl K)) (qs ss c lo hi : Nat) : Set (MCell K) :=
  {x | ∃ t, lo ≤ t ∧ t < hi ∧ x.vec = v t ∧ x.row = ((t + qs : Nat) : Int) ∧ x.col = ((c + ss : Nat) : Int)}

theorem columnLeft_inv {p : MDMP K} {D w : Nat} {P : Nat → Nat → Set (MCell K)} (h : p.left.Inv D w P) (argsort : List (Fl K) → List Nat) (has : ∀ l, IsArgsort l (argsort l))
    (k : Nat) (hk : k < D) (c : Nat) (hc : c < w) (n : Nat) (hn : 0 < n) (v : Nat → List (Fl K)) (hv : ∀ t < n, (v t).length = D ∧ ∀ x ∈ v t, x ≠ .ninf ∧ x ≠ .nan)
    (B qs ss : Nat) (hqs : p.queryShift = qs) :
    ∃ s', p.columnLeft argsort k c ((List.range n).map v) ((List.range n).map fun t => Fl.sum ((npSort (v t)).take (k + 1))) B = .ok s' ∧
      s'.Inv D w (fun k' c' => if k' = k ∧ c' = c then P k' c' ∪ newCells v qs ss c 0 (min B n) else P k' c') := by
  unfold columnLeft
  by_cases hB : 0 < B
  · rw [if_pos (by omega), pyTo_nat, List.map_take.symm, List.take_range, hqs]
    obtain ⟨s', e1, e2⟩ := column_inv h argsort has k hk c hc n v hv 0 (min B n) qs ss (by omega) (by omega)
    simp only [Nat.zero_add] at e1
    refine ⟨s', e1, e2.congr fun k' _ c' _ => ?_⟩
    have : {x : MCell K | ∃ t < min B n, x.vec = v (0 + t) ∧ x.row = ((0 + t + qs : Nat) : Int) ∧ x.col = ((c + ss : Nat) : Int)} = newCells v qs ss c 0 (min B n) := by
      ext x
      simp only [newCells, Set.mem_ofPred_eq, Nat.zero_add, Nat.zero_le, true_and]
    rw [this]
  · rw [if_neg (by omega)]
    refine ⟨_, rfl, h.congr fun k' _ c' _ => ?_⟩
    have : newCells v qs ss c 0 (min B n) = (∅ : Set (MCell K)) := by
      ext x
      simp only [newCells, Set.mem_ofPred_eq, Set.mem_empty_iff_false, iff_false]
      rintro ⟨t, h1, h2, -⟩
      omega
    rw [this, Set.union_empty, ite_self]

theorem columnRight_inv {p : MDMP K} {D w : Nat} {P : Nat → Nat → Set (MCell K)} (h : p.right.Inv D w P) (argsort : List (Fl K) → List Nat) (has : ∀ l, IsArgsort l (argsort l))
    (k : Nat) (hk : k < D) (c : Nat) (hc : c < w) (n : Nat) (v : Nat → List (Fl K)) (hv : ∀ t < n, (v t).length = D ∧ ∀ x ∈ v t, x ≠ .ninf ∧ x ≠ .nan)
    (B qs ss : Nat) (hqs : p.queryShift = qs) :
    ∃ s', p.columnRight argsort k c ((List.range n).map v) ((List.range n).map fun t => Fl.sum ((npSort (v t)).take (k + 1))) B = .ok s' ∧
      s'.Inv D w (fun k' c' => if k' = k ∧ c' = c then P k' c' ∪ newCells v qs ss c B n else P k' c') := by
  unfold columnRight
  by_cases hB : B < n
  · have e0 : pyFrom ((List.range n).map fun t => Fl.sum ((npSort (v t)).take (k + 1))) (B : Int) =
        (List.range (n - B)).map fun t => Fl.sum ((npSort (v (B + t))).take (k + 1)) := by
      rw [pyFrom_nat]
      apply List.ext_getElem?
      intro i
      rw [List.getElem?_drop, List.getElem?_map, List.getElem?_map]
      rcases Nat.lt_or_ge i (n - B) with hi | hi
      · rw [List.getElem?_range hi, List.getElem?_range (by omega)]; rfl
      · rw [List.getElem?_eq_none (by simp; omega), List.getElem?_eq_none (by simp; omega)]; rfl
    rw [if_pos (by simp; omega), e0, hqs]
    obtain ⟨s', e1, e2⟩ := column_inv h argsort has k hk c hc n v hv B (n - B) qs ss (by omega) (by omega)
    refine ⟨s', e1, e2.congr fun k' _ c' _ => ?_⟩
    have : {x : MCell K | ∃ t < n - B, x.vec = v (B + t) ∧ x.row = ((B + t + qs : Nat) : Int) ∧ x.col = ((c + ss : Nat) : Int)} = newCells v qs ss c B n := by
      ext x
      simp only [newCells, Set.mem_ofPred_eq]
      constructor
      · rintro ⟨t, h1, h2⟩
        exact ⟨B + t, by omega, by omega, h2⟩
      · rintro ⟨t, h1, h2, h3⟩
        refine ⟨t - B, by omega, ?_⟩
        rw [show B + (t - B) = t by omega]
        exact h3
    rw [this]
  · rw [if_neg (by simp; omega)]
    refine ⟨_, rfl, h.congr fun k' _ c' _ => ?_⟩
    have : newCells v qs ss c B n = (∅ : Set (MCell K)) := by
      ext x
      simp only [newCells, Set.mem_ofPred_eq, Set.mem_empty_iff_false, iff_false]
      rintro ⟨t, h1, h2, -⟩
      omega
    rw [this, Set.union_empty, ite_self]

/-- The loop over the dimensions of a column. -/
theorem columnLoop_inv {D w : Nat} (argsort : List (Fl K) → List Nat) (has : ∀ l, IsArgsort l (argsort l))
    (c : Nat) (hc : c < w) (n : Nat) (hn : 0 < n) (v : Nat → List (Fl K)) (hv : ∀ t < n, (v t).length = D ∧ ∀ x ∈ v t, x ≠ .ninf ∧ x ≠ .nan) (B qs ss : Nat) :
    ∀ (m d : Nat) (_ : d + m ≤ D) (p : MDMP K) (PL PR : Nat → Nat → Set (MCell K)), p.queryShift = qs → p.left.Inv D w PL → p.right.Inv D w PR →
    ∃ l r, columnLoop argsort c ((List.range n).map v) B p ((List.range n).map fun t => Fl.sum ((npSort (v t)).take d)) (List.range' d m) =
        .ok { p with left := l, right := r } ∧
      l.Inv D w (fun k c' => if d ≤ k ∧ k < d + m ∧ c' = c then PL k c' ∪ newCells v qs ss c 0 (min B n) else PL k c') ∧
      r.Inv D w (fun k c' => if d ≤ k ∧ k < d + m ∧ c' = c then PR k c' ∪ newCells v qs ss c B n else PR k c')
  | 0, d, _, p, PL, PR, _, hl, hr => by
    refine ⟨p.left, p.right, rfl, hl.congr fun k _ c' _ => ?_, hr.congr fun k _ c' _ => ?_⟩
    · rw [if_neg (by omega)]
    · rw [if_neg (by omega)]
  | m + 1, d, hdm, p, PL, PR, hqs, hl, hr => by
    set x : Nat → Fl K := fun t => (npSort (v t)).getD d .nan with hx
    have hget : ∀ t < n, (npSort (v t))[d]? = some (x t) := by
      intro t ht
      obtain ⟨y, hy⟩ := MDSide.npSort_get (v t) d (by rw [(hv t ht).1]; omega)
      rw [hy, hx]
      simp [List.getD, hy]
    have e1 : (((List.range n).map v).map npSort).mapM (fun l => pyGet l (d : Int)) = .ok ((List.range n).map x) := by
      rw [List.map_map, List.mapM_map, mapM_ok_map _ x]
      intro t ht
      exact (pyGet_nat_ok _ _ _).mpr (hget t (List.mem_range.mp ht))
    have e2 : List.zipWith Fl.add ((List.range n).map fun t => Fl.sum ((npSort (v t)).take d)) ((List.range n).map x) =
        (List.range n).map fun t => Fl.sum ((npSort (v t)).take (d + 1)) := by
      rw [List.zipWith_map, List.zipWith_self]
      refine List.map_congr_left fun t ht => ?_
      rw [Fl.sum_take_succ _ _ _ (hget t (List.mem_range.mp ht))]
    obtain ⟨l1, f1, g1⟩ := columnLeft_inv hl argsort has d (by omega) c hc n hn v hv B qs ss hqs
    obtain ⟨r1, f2, g2⟩ := columnRight_inv hr argsort has d (by omega) c hc n v hv B qs ss hqs
    obtain ⟨l2, r2, f3, g3, g4⟩ := columnLoop_inv argsort has c hc n hn v hv B qs ss m (d + 1) (by omega) { p with left := l1, right := r1 } _ _ hqs g1 g2
    refine ⟨l2, r2, ?_, g3.congr ?_, g4.congr ?_⟩
    · rw [List.range'_succ, columnLoop]
      simp only [e1, bind, Except.bind, e2, f1, f2, f3]
    · intro k _ c' _
      by_cases hcc : c' = c
      · rcases Nat.lt_trichotomy k d with hk | rfl | hk
        · rw [if_neg (by omega), if_neg (by omega), if_neg (by omega)]
        · rw [if_neg (by omega), if_pos ⟨rfl, hcc⟩, if_pos (by omega)]
        · by_cases hk2 : k < d + (m + 1)
          · rw [if_pos (by omega), if_neg (by omega), if_pos (by omega)]
          · rw [if_neg (by omega), if_neg (by omega), if_neg (by omega)]
      · simp [hcc]
    · intro k _ c' _
      by_cases hcc : c' = c
      · rcases Nat.lt_trichotomy k d with hk | rfl | hk
        · rw [if_neg (by omega), if_neg (by omega), if_neg (by omega)]
        · rw [if_neg (by omega), if_pos ⟨rfl, hcc⟩, if_pos (by omega)]
        · by_cases hk2 : k < d + (m + 1)
          · rw [if_pos (by omega), if_neg (by omega), if_pos (by omega)]
          · rw [if_neg (by omega), if_neg (by omega), if_neg (by omega)]
      · simp [hcc]

/-- Invariant: both sides hold the minima over what has been delivered for their side. -/
structure Inv (p : MDMP K) (D w : Nat) (t : MSeen K) : Prop where
  nDim : p.nDim = D
  rangeGood : p.range.Good w
  range : p.range.items = (List.range w).map fun i : Nat => ((i + t.qs : Nat) : Int)
  left : p.left.Inv D w (fun _ c => t.sel true ((c + t.ss : Nat) : Int))
  right : p.right.Inv D w (fun _ c => t.sel false ((c + t.ss : Nat) : Int))
  ss : p.seriesShift = t.ss
  qs : p.queryShift = t.qs
  /-- nothing has been delivered beyond the window -/
  old : ∀ x ∈ t.cells, x.col < ((w + t.ss : Nat) : Int)

theorem list_eq_range_map {α : Type} (l : List (List α)) : l = (List.range l.length).map fun t => l.getD t [] := by
  apply List.ext_getElem?
  intro i
  rw [List.getElem?_map]
  rcases Nat.lt_or_ge i l.length with hi | hi
  · rw [List.getElem?_range hi, List.getElem?_eq_getElem hi]
    simp [List.getD, List.getElem?_eq_getElem hi]
  · rw [List.getElem?_eq_none hi, List.getElem?_eq_none (by simpa using hi)]
    rfl

theorem mem_vals_getD {α : Type} (l : List (List α)) (t : Nat) (ht : t < l.length) : l.getD t [] ∈ l ∧ l[t]? = some (l.getD t []) := by
  rw [List.getD, List.getElem?_eq_getElem ht]
  exact ⟨List.getElem_mem ht, rfl⟩

theorem processColumn_inv {p : MDMP K} {D w : Nat} {t : MSeen K} (hp : p.Inv D w t) (argsort : List (Fl K) → List Nat) (has : ∀ l, IsArgsort l (argsort l)) (c : Nat) (hc : c < w)
    (vals : List (List (Fl K))) (hne : vals ≠ []) (hv : ∀ vec ∈ vals, vec.length = D ∧ ∀ x ∈ vec, x ≠ .ninf ∧ x ≠ .nan) :
    ∃ p', p.processColumn argsort c D vals = .ok p' ∧ p'.Inv D w (t.step (.column c vals)) := by
  set n := vals.length with hn
  have hpos : 0 < n := List.length_pos_iff.mpr hne
  set v : Nat → List (Fl K) := fun t => vals.getD t [] with hvdef
  have hvals : vals = (List.range n).map v := list_eq_range_map vals
  have hv' : ∀ t < n, (v t).length = D ∧ ∀ x ∈ v t, x ≠ .ninf ∧ x ≠ .nan := fun t ht => hv _ (mem_vals_getD vals t ht).1
  obtain ⟨l, r, e1, e2, e3⟩ := columnLoop_inv argsort has c hc n hpos v hv' (c + 1 + t.ss - t.qs) t.qs t.ss D 0 (by omega) p _ _ hp.qs hp.left hp.right
  have hcell : ∀ x : MCell K, x ∈ (MDelivery.column c vals).cells t.ss t.qs ↔ x ∈ newCells v t.qs t.ss c 0 n := by
    intro x
    simp only [MDelivery.cells, newCells, Set.mem_ofPred_eq]
    constructor
    · rintro ⟨k, h1, h2⟩
      have hk : k < n := (List.getElem?_eq_some_iff.mp h1).1
      refine ⟨k, by omega, hk, ?_, h2⟩
      rw [(mem_vals_getD vals k hk).2] at h1
      exact (Option.some.inj h1).symm
    · rintro ⟨k, -, hk, h1, h2⟩
      exact ⟨k, by rw [h1]; exact (mem_vals_getD vals k hk).2, h2⟩
  refine ⟨{ p with left := l, right := r }, ?_, hp.nDim, hp.rangeGood, hp.range, e2.congr ?_, e3.congr ?_, hp.ss, hp.qs, ?_⟩
  · unfold processColumn
    rw [show max 0 ((c : Int) + 1 + (p.seriesShift - p.queryShift)) = ((c + 1 + t.ss - t.qs : Nat) : Int) by rw [hp.ss, hp.qs]; omega, List.range_eq_range' (n := D)]
    rw [show List.replicate vals.length (.fin 0) = (List.range n).map fun t => Fl.sum ((npSort (v t)).take 0) by
      simp only [List.take_zero, Fl.sum_nil]
      rw [List.map_const', List.length_range]]
    rw [← hvals] at e1
    exact e1
  · intro k hk c' _
    ext x
    by_cases hcc : c' = c
    · subst hcc
      rw [if_pos (by omega)]
      simp only [MSeen.sel, MSeen.step, Set.mem_union, Set.mem_ofPred_eq, hcell]
      simp only [newCells, Set.mem_ofPred_eq]
      constructor
      · rintro (⟨h1, h2⟩ | ⟨j, h1, h2, h3, h4, h5⟩)
        · exact ⟨.inl h1, h2⟩
        · exact ⟨.inr ⟨j, h1, by omega, h3, h4, h5⟩, h5, by simp; omega⟩
      · rintro ⟨h1 | ⟨j, h1, h2, h3, h4, h5⟩, h6, h7⟩
        · exact .inl ⟨h1, h6, h7⟩
        · simp only [decide_eq_true_eq] at h7
          exact .inr ⟨j, h1, by omega, h3, h4, h5⟩
    · rw [if_neg (by omega)]
      simp only [MSeen.sel, MSeen.step, Set.mem_union, Set.mem_ofPred_eq, hcell]
      constructor
      · rintro ⟨h1, h2⟩
        exact ⟨.inl h1, h2⟩
      · rintro ⟨h1 | ⟨j, h1, h2, h3, h4, h5⟩, h6, h7⟩
        · exact ⟨h1, h6, h7⟩
        · omega
  · intro k hk c' _
    ext x
    by_cases hcc : c' = c
    · subst hcc
      rw [if_pos (by omega)]
      simp only [MSeen.sel, MSeen.step, Set.mem_union, Set.mem_ofPred_eq, hcell]
      simp only [newCells, Set.mem_ofPred_eq]
      constructor
      · rintro (⟨h1, h2⟩ | ⟨j, h1, h2, h3, h4, h5⟩)
        · exact ⟨.inl h1, h2⟩
        · exact ⟨.inr ⟨j, by omega, h2, h3, h4, h5⟩, h5, by simp; omega⟩
      · rintro ⟨h1 | ⟨j, h1, h2, h3, h4, h5⟩, h6, h7⟩
        · exact .inl ⟨h1, h6, h7⟩
        · simp only [decide_eq_false_iff_not] at h7
          exact .inr ⟨j, by omega, h2, h3, h4, h5⟩
    · rw [if_neg (by omega)]
      simp only [MSeen.sel, MSeen.step, Set.mem_union, Set.mem_ofPred_eq, hcell]
      constructor
      · rintro ⟨h1, h2⟩
        exact ⟨.inl h1, h2⟩
      · rintro ⟨h1 | ⟨j, h1, h2, h3, h4, h5⟩, h6, h7⟩
        · exact ⟨h1, h6, h7⟩
        · omega
  · intro x hx
    simp only [MSeen.step, Set.mem_union, hcell] at hx
    rcases hx with hx | ⟨j, h1, h2, h3, h4, h5⟩
    · exact hp.old x hx
    · simp only [MSeen.step]; omega

/-! ### Diagonals -/

/-- Both passes of `process_diagonal` over the same side: the second one changes nothing, as the distances are not negative. -/
theorem twoPass {s : MDSide K} {D w : Nat} {P : Nat → Nat → Set (MCell K)} (h : s.Inv D w P) (argsort : List (Fl K) → List Nat) (has : ∀ l, IsArgsort l (argsort l))
    (a n : Nat) (ha : a + n ≤ w) (v : Nat → List (Fl K)) (hv : ∀ t < n, (v t).length = D ∧ ∀ x ∈ v t, .fin 0 ≤ x) (ρ : Nat → Int) (ss : Nat) :
    ∃ s1 cum s2 cum', s.loop ((List.range n).map fun t => npSort (v t)) ((List.range n).map fun t => (argsort (v t)).map fun i : Nat => (i : Int)) ((List.range n).map ρ) a ((a : Int) + n)
        (List.replicate n (.fin 0)) (List.range D) = .ok (s1, cum) ∧
      s1.loop ((List.range n).map fun t => npSort (v t)) ((List.range n).map fun t => (argsort (v t)).map fun i : Nat => (i : Int)) ((List.range n).map ρ) a ((a : Int) + n)
        cum (List.range D) = .ok (s2, cum') ∧
      s2.Inv D w (fun k c => if a ≤ c ∧ c < a + n then P k c ∪ {x | x.vec = v (c - a) ∧ x.row = ρ (c - a) ∧ x.col = ((c + ss : Nat) : Int)} else P k c) := by
  obtain ⟨F, hr, hm⟩ := h
  have hninf : ∀ t < n, ∀ x ∈ v t, x ≠ .ninf := by
    intro t ht x hx he
    have := (hv t ht).2 x hx
    rw [he] at this
    exact absurd this (by simp)
  obtain ⟨s1, e1, r1⟩ := MDSide.loop_rep D w a n ha v (fun t ht => (hv t ht).1) (fun t => (argsort (v t)).map fun i : Nat => (i : Int)) ρ (fun _ => .fin 0) D 0 (by omega) s F hr
  obtain ⟨s2, e2, r2⟩ := MDSide.loop_rep D w a n ha v (fun t ht => (hv t ht).1) (fun t => (argsort (v t)).map fun i : Nat => (i : Int)) ρ
    (fun t => Fl.sum ((npSort (v t)).take (0 + D))) D 0 (by omega) s1 _ r1
  rw [← List.range_eq_range'] at e1 e2
  rw [show ((List.range n).map fun t => Fl.add (.fin 0) (Fl.sum ((npSort (v t)).take 0))) = List.replicate n (.fin 0) by
    simp only [List.take_zero, Fl.sum_nil, Fl.zero_add']
    rw [List.map_const', List.length_range]] at e1
  rw [show ((List.range n).map fun t => Fl.add (Fl.sum ((npSort (v t)).take (0 + D))) (Fl.sum ((npSort (v t)).take 0))) =
      ((List.range n).map fun t => Fl.add (.fin 0) (Fl.sum ((npSort (v t)).take (0 + D)))) by
    simp only [List.take_zero, Fl.sum_nil, Fl.zero_add']
    refine List.map_congr_left fun t _ => ?_
    rw [Fl.add_comm', Fl.zero_add']] at e2
  refine ⟨s1, _, s2, _, e1, e2, _, r2, fun k hk c hc => ?_⟩
  by_cases hac : a ≤ c ∧ c < a + n
  · simp only [hac, Nat.zero_le, Nat.zero_add, hk, and_self, if_true]
    have ht : c - a < n := by omega
    obtain ⟨f1, f2⟩ := MDSide.smallMean_attained D k hk (v (c - a)) (hv _ ht).1 _ (has (v (c - a)))
    have hcand : Cand D k {x : MCell K | x.vec = v (c - a) ∧ x.row = ρ (c - a) ∧ x.col = ((c + ss : Nat) : Int)}
        (Fl.div (Fl.add (.fin 0) (Fl.sum ((npSort (v (c - a))).take (k + 1)))) (.fin ((k : K) + 1)), ρ (c - a), ((argsort (v (c - a))).map fun i : Nat => (i : Int)).take (k + 1)) := by
      rw [Fl.zero_add']
      refine ⟨?_, ⟨ρ (c - a), ((c + ss : Nat) : Int), v (c - a)⟩, ⟨rfl, rfl, rfl⟩, (argsort (v (c - a))).take (k + 1), f1, rfl, ?_, f2⟩
      · rintro y ⟨hy, -, -⟩ T hT
        rw [hy]
        exact MDSide.smallMean_le D k (v (c - a)) (hv _ ht).1 (hninf _ ht) T hT
      · exact List.map_take.symm
    have h1 := (hm k hk c hc).step hcand
    have hno : pickT (pickT (F k c) (Fl.div (Fl.add (.fin 0) (Fl.sum ((npSort (v (c - a))).take (k + 1)))) (.fin ((k : K) + 1)), ρ (c - a), ((argsort (v (c - a))).map fun i : Nat => (i : Int)).take (k + 1)))
        (Fl.div (Fl.add (Fl.sum ((npSort (v (c - a))).take D)) (Fl.sum ((npSort (v (c - a))).take (k + 1)))) (.fin ((k : K) + 1)), ρ (c - a), ((argsort (v (c - a))).map fun i : Nat => (i : Int)).take (k + 1)) =
        pickT (F k c) (Fl.div (Fl.add (.fin 0) (Fl.sum ((npSort (v (c - a))).take (k + 1)))) (.fin ((k : K) + 1)), ρ (c - a), ((argsort (v (c - a))).map fun i : Nat => (i : Int)).take (k + 1)) := by
      conv_lhs => unfold pickT
      rw [if_neg]
      · rfl
      · rw [Bool.not_eq_true, Fl.ltF_false_iff _ _ (by have := h1.number; unfold pickT at this; exact this)]
        have h2 := h1.lower ⟨ρ (c - a), ((c + ss : Nat) : Int), v (c - a)⟩ (.inr ⟨rfl, rfl, rfl⟩) _ f1
        refine le_trans h2 ?_
        simp only
        rw [← f2]
        refine Fl.div_le_div' k ?_
        have hm' : ∀ x ∈ npSort (v (c - a)), .fin 0 ≤ x := fun x hx => (hv _ ht).2 x ((List.perm_insertionSort _ _).mem_iff.mp hx)
        have h0 : (Fl.fin 0 : Fl K) ≤ Fl.sum ((npSort (v (c - a))).take D) := Fl.sum_nonneg _ fun x hx => hm' x (List.mem_of_mem_take hx)
        have h3 : Fl.sum ((npSort (v (c - a))).take (k + 1)) ≠ .ninf := Fl.sum_ne_ninf _ fun x hx => hninf _ ht x ((List.perm_insertionSort _ _).mem_iff.mp (List.mem_of_mem_take hx))
        have := Fl.add_le_add' (a := .fin 0) (by simp) h3 h0 le_rfl
        rwa [Fl.zero_add'] at this
    rw [hno]
    exact h1
  · simp only [hac, and_false, if_false]
    exact hm k hk c hc

theorem processDiagonal_inv {p : MDMP K} {D w : Nat} {t : MSeen K} (hp : p.Inv D w t) (argsort : List (Fl K) → List Nat) (has : ∀ l, IsArgsort l (argsort l)) (d : Int)
    (vals : List (List (Fl K))) (hd1 : d.toNat + vals.length ≤ w) (hd2 : (-d).toNat + vals.length ≤ w) (hv : ∀ vec ∈ vals, vec.length = D ∧ ∀ x ∈ vec, .fin 0 ≤ x)
    (hsign : 0 ≤ d ↔ 0 ≤ d + t.ss - t.qs) :
    ∃ p', p.processDiagonal argsort d D vals = .ok p' ∧ p'.Inv D w (t.step (.diag d vals)) := by
  set n := vals.length with hn
  set v : Nat → List (Fl K) := fun t => vals.getD t [] with hvdef
  have hvals : vals = (List.range n).map v := list_eq_range_map vals
  have hv' : ∀ t < n, (v t).length = D ∧ ∀ x ∈ v t, .fin 0 ≤ x := fun t ht => hv _ (mem_vals_getD vals t ht).1
  set ρ : Nat → Int := fun j => (((-d).toNat + j + t.qs : Nat) : Int) with hρ
  have hrows : diagRows p.range.items d n = (List.range n).map ρ := by
    obtain ⟨h1, h2⟩ := diagRows_ok p.range.items w t.qs hp.range d n hd2
    apply List.ext_getElem?
    intro i
    rcases Nat.lt_or_ge i n with hi | hi
    · have := List.getElem?_eq_getElem (l := diagRows p.range.items d n) (i := i) (by omega)
      rw [this, h2 i _ this, List.getElem?_map, List.getElem?_range hi]
      rfl
    · rw [List.getElem?_eq_none (by omega), List.getElem?_eq_none (by simpa using hi)]
  have hcell : ∀ x : MCell K, x ∈ (MDelivery.diag d vals).cells t.ss t.qs ↔ ∃ j < n, x.vec = v j ∧ x.row = ρ j ∧ x.col = ((d.toNat + j + t.ss : Nat) : Int) := by
    intro x
    simp only [MDelivery.cells, Set.mem_ofPred_eq]
    constructor
    · rintro ⟨k, h1, h2⟩
      have hk : k < n := (List.getElem?_eq_some_iff.mp h1).1
      refine ⟨k, hk, ?_, h2⟩
      rw [(mem_vals_getD vals k hk).2] at h1
      exact (Option.some.inj h1).symm
    · rintro ⟨k, hk, h1, h2⟩
      exact ⟨k, by rw [h1]; exact (mem_vals_getD vals k hk).2, h2⟩
  have e1 : vals.map npSort = (List.range n).map fun t => npSort (v t) := by
    conv_lhs => rw [hvals]
    rw [List.map_map]; rfl
  have e2 : vals.map (fun l => (argsort l).map fun i : Nat => (i : Int)) = (List.range n).map fun t => (argsort (v t)).map fun i : Nat => (i : Int) := by
    conv_lhs => rw [hvals]
    rw [List.map_map]; rfl
  have hsame : ∀ left, decide (0 ≤ d) = left → ∀ c < w, (if d.toNat ≤ c ∧ c < d.toNat + n then t.sel left ((c + t.ss : Nat) : Int) ∪
      {x | x.vec = v (c - d.toNat) ∧ x.row = ρ (c - d.toNat) ∧ x.col = ((c + t.ss : Nat) : Int)} else t.sel left ((c + t.ss : Nat) : Int)) =
      (t.step (.diag d vals)).sel left ((c + t.ss : Nat) : Int) := by
    intro left hl c _
    ext x
    by_cases hc : d.toNat ≤ c ∧ c < d.toNat + n
    · rw [if_pos hc]
      simp only [MSeen.sel, MSeen.step, Set.mem_union, Set.mem_ofPred_eq, hcell]
      constructor
      · rintro (⟨h1, h2⟩ | ⟨h3, h4, h5⟩)
        · exact ⟨.inl h1, h2⟩
        · refine ⟨.inr ⟨c - d.toNat, by omega, h3, h4, by rw [h5]; congr 1; omega⟩, h5, ?_⟩
          rw [← hl]
          simp only [hρ] at h4
          apply decide_eq_decide.mpr
          omega
      · rintro ⟨h1 | ⟨j, h2, h3, h4, h5⟩, h6, h7⟩
        · exact .inl ⟨h1, h6, h7⟩
        · have : j = c - d.toNat := by omega
          subst this
          exact .inr ⟨h3, h4, h6⟩
    · rw [if_neg hc]
      simp only [MSeen.sel, MSeen.step, Set.mem_union, Set.mem_ofPred_eq, hcell]
      constructor
      · rintro ⟨h1, h2⟩
        exact ⟨.inl h1, h2⟩
      · rintro ⟨h1 | ⟨j, h2, h3, h4, h5⟩, h6, h7⟩
        · exact ⟨h1, h6, h7⟩
        · omega
  have hother : ∀ left, decide (0 ≤ d) ≠ left → ∀ c < w, t.sel left ((c + t.ss : Nat) : Int) = (t.step (.diag d vals)).sel left ((c + t.ss : Nat) : Int) := by
    intro left hl c _
    ext x
    simp only [MSeen.sel, MSeen.step, Set.mem_union, Set.mem_ofPred_eq, hcell]
    constructor
    · rintro ⟨h1, h2⟩
      exact ⟨.inl h1, h2⟩
    · rintro ⟨h1 | ⟨j, h2, h3, h4, h5⟩, h6, h7⟩
      · exact ⟨h1, h6, h7⟩
      · refine absurd ?_ hl
        rw [← h7]
        simp only [hρ] at h4
        apply decide_eq_decide.mpr
        omega
  have hold : ∀ x ∈ (t.step (.diag d vals)).cells, x.col < ((w + (t.step (.diag d vals)).ss : Nat) : Int) := by
    intro x hx
    simp only [MSeen.step, Set.mem_union, hcell] at hx
    rcases hx with hx | ⟨j, h2, h3, h4, h5⟩
    · exact hp.old x hx
    · simp only [MSeen.step]; omega
  by_cases hd : 0 ≤ d
  · obtain ⟨s1, cum, s2, cum', f1, f2, f3⟩ := twoPass hp.left argsort has d.toNat n hd1 v hv' ρ t.ss
    refine ⟨{ p with left := s2 }, ?_, hp.nDim, hp.rangeGood, hp.range, f3.congr ?_, hp.right.congr ?_, hp.ss, hp.qs, hold⟩
    · have h1 : d + (p.seriesShift - p.queryShift) ≥ 0 := by rw [hp.ss, hp.qs]; have := hsign.mp hd; omega
      unfold processDiagonal secondPass
      rw [← hn]
      simp only [diagCols_ok, if_pos h1, hrows, e1, e2, f1, bind, Except.bind, if_pos hd, ge_iff_le, f2]
      rfl
    · intro k _ c hc
      exact hsame true (by simpa using hd) c hc
    · intro k _ c hc
      exact hother false (by simpa using hd) c hc
  · obtain ⟨s1, cum, s2, cum', f1, f2, f3⟩ := twoPass hp.right argsort has d.toNat n hd1 v hv' ρ t.ss
    refine ⟨{ p with right := s2 }, ?_, hp.nDim, hp.rangeGood, hp.range, hp.left.congr ?_, f3.congr ?_, hp.ss, hp.qs, hold⟩
    · have h1 : ¬ d + (p.seriesShift - p.queryShift) ≥ 0 := by rw [hp.ss, hp.qs]; have := hsign.not.mp hd; omega
      unfold processDiagonal secondPass
      rw [← hn]
      simp only [diagCols_ok, if_neg h1, hrows, e1, e2, f1, bind, Except.bind, ge_iff_le, hd, if_false, false_and, f2]
      rfl
    · intro k _ c hc
      exact hother true (by simpa using hd) c hc
    · intro k _ c hc
      exact hsame false (by simpa using hd) c hc

/-! ### Shifts -/

theorem shiftDims_ok (amount w : Nat) : ∀ (l : List (RB (List Int))) (k : Nat) (F : Nat → Nat → List Int),
    (∀ i < l.length, ∃ rb, l[i]? = some rb ∧ rb.Good w ∧ rb.lead = [k + i + 1] ∧ rb.items = (List.range w).map (F (k + i))) →
    ∃ l', MDSide.shiftDims amount k l = .ok l' ∧ l'.length = l.length ∧
      ∀ i < l.length, ∃ rb, l'[i]? = some rb ∧ rb.Good w ∧ rb.lead = [k + i + 1] ∧
        rb.items = (List.range w).map fun c => if c + amount < w then F (k + i) (c + amount) else List.replicate (k + i + 1) (-1)
  | [], _, _, _ => ⟨[], rfl, rfl, fun i hi => absurd hi (by simp)⟩
  | rb :: rest, k, F, h => by
    obtain ⟨rb0, h0, hg, hl, hi⟩ := h 0 (by simp)
    simp only [List.getElem?_cons_zero, Option.some.injEq] at h0
    subst h0
    simp only [Nat.add_zero] at hl hi
    obtain ⟨rb1, e1, g1, i1, l1⟩ := hg.push (List.replicate amount (List.replicate (k + 1) (-1)))
    obtain ⟨l', e2, e3, e4⟩ := shiftDims_ok amount w rest (k + 1) F (by
      intro i hi
      obtain ⟨rb2, q1, q2, q3, q4⟩ := h (i + 1) (by simpa using hi)
      rw [show k + (i + 1) = k + 1 + i by omega] at q3 q4
      exact ⟨rb2, by simpa using q1, q2, q3, q4⟩)
    refine ⟨rb1 :: l', ?_, by simp [e3], ?_⟩
    · rw [MDSide.shiftDims]
      have : rb.pushArr [k + 1] (List.replicate amount (List.replicate (k + 1) (-1))) = rb.push (List.replicate amount (List.replicate (k + 1) (-1))) := by
        unfold RB.pushArr
        rw [if_neg (by simp [hl])]
      simp only [this, e1, bind, Except.bind, e2]
      rfl
    · intro i hi'
      cases i with
      | zero =>
        refine ⟨rb1, rfl, g1, by rw [l1, hl], ?_⟩
        rw [i1, hi]
        apply List.ext_getElem?
        intro c
        simp only [lastN, List.length_append, List.length_map, List.length_range, List.length_replicate]
        rw [show w + amount - w = amount by omega]
        simp only [List.getElem?_drop, List.getElem?_append, List.length_map, List.length_range, List.getElem?_map, List.getElem?_replicate]
        rcases Nat.lt_or_ge c w with hc | hc
        · rw [List.getElem?_range hc]
          by_cases hca : amount + c < w
          · rw [if_pos hca, List.getElem?_range hca]
            simp [Nat.add_comm c amount, hca]
          · rw [if_neg hca, if_pos (by omega)]
            simp [Nat.add_comm c amount, hca]
        · rw [if_neg (by omega), if_neg (by omega), List.getElem?_eq_none (by simpa using hc)]
          rfl
      | succ i =>
        obtain ⟨rb2, q1, q2, q3, q4⟩ := e4 i (by simpa using hi')
        refine ⟨rb2, by simpa using q1, q2, by rw [q3, show k + (i + 1) = k + 1 + i by omega], ?_⟩
        rw [q4]
        simp only [show k + (i + 1) = k + 1 + i by omega]

theorem shift_rep {s : MDSide K} {D w : Nat} {F : Nat → Nat → Fl K × Int × List Int} (h : s.Rep D w F) (n : Nat) :
    ∃ s', s.shift D n = .ok s' ∧ s'.Rep D w (fun k c => if c + n < w then F k (c + n) else (.pinf, -1, List.replicate (k + 1) (-1))) := by
  obtain ⟨m, i1, e1, g1⟩ := h.mp.push n .pinf
  obtain ⟨r, i2, e2, g2⟩ := h.pi.push n (-1)
  obtain ⟨dm, e3, e4, e5⟩ := shiftDims_ok n w s.dm 0 (fun k c => (F k c).2.2) (by
    intro i hi
    simpa using h.dm i (by rw [← h.len]; exact hi))
  refine ⟨⟨m, r, dm⟩, ?_, g1.congr ?_, g2.congr ?_, by rw [e4, h.len], ?_⟩
  · unfold MDSide.shift
    simp only [e1, e2, e3, bind, Except.bind]
    rfl
  · intro i _ j _
    split <;> rfl
  · intro i _ j _
    split <;> rfl
  · intro k hk
    obtain ⟨rb, q1, q2, q3, q4⟩ := e5 k (by rw [h.len]; exact hk)
    refine ⟨rb, q1, q2, by simpa using q3, ?_⟩
    rw [q4]
    refine List.map_congr_left fun c _ => ?_
    simp only [Nat.zero_add]
    split <;> rfl

theorem shiftSeries_inv {p : MDMP K} {D w : Nat} {t : MSeen K} (hp : p.Inv D w t) (n : Nat) :
    ∃ p', p.shiftSeries n = .ok p' ∧ p'.Inv D w (t.step (.shiftSeries n)) := by
  by_cases hn : n = 0
  · subst hn
    exact ⟨p, by simp [shiftSeries], hp.nDim, hp.rangeGood, hp.range, hp.left, hp.right, hp.ss, hp.qs, hp.old⟩
  have key : ∀ (left : Bool) (s : MDSide K), s.Inv D w (fun _ c => t.sel left ((c + t.ss : Nat) : Int)) →
      ∃ s', s.shift D n = .ok s' ∧ s'.Inv D w (fun _ c => (t.step (.shiftSeries n)).sel left ((c + (t.ss + n) : Nat) : Int)) := by
    rintro left s ⟨F, h1, h2⟩
    obtain ⟨s', e1, e2⟩ := shift_rep h1 n
    refine ⟨s', e1, _, e2, fun k hk c hc => ?_⟩
    by_cases hcn : c + n < w
    · rw [if_pos hcn]
      have := h2 k hk (c + n) hcn
      simp only at this ⊢
      rw [show c + n + t.ss = c + (t.ss + n) by omega] at this
      exact this
    · rw [if_neg hcn]
      refine ⟨by simp, ?_, .inl ⟨rfl, rfl, rfl⟩⟩
      rintro x ⟨hx1, hx2, -⟩ T _
      have := hp.old x hx1
      omega
  obtain ⟨l, h1, h2⟩ := key true _ hp.left
  obtain ⟨r, h3, h4⟩ := key false _ hp.right
  refine ⟨{ p with left := l, right := r, seriesShift := p.seriesShift + n }, ?_, hp.nDim, hp.rangeGood, hp.range, h2, h4, ?_, hp.qs, ?_⟩
  · unfold shiftSeries
    rw [if_neg (by omega), if_neg (by omega)]
    simp only [Int.toNat_natCast, hp.nDim, h1, h3, bind, Except.bind, pure, Except.pure]
  · simp [hp.ss, MSeen.step]
  · intro x hx
    have := hp.old x hx
    simp only [MSeen.step]; omega

theorem shiftQuery_inv {p : MDMP K} {D w : Nat} {t : MSeen K} (hp : p.Inv D w t) (n : Nat) :
    ∃ p', p.shiftQuery n = .ok p' ∧ p'.Inv D w (t.step (.shiftQuery n)) := by
  by_cases hn : n = 0
  · subst hn
    exact ⟨p, by simp [shiftQuery], hp.nDim, hp.rangeGood, hp.range, hp.left, hp.right, hp.ss, hp.qs, hp.old⟩
  have hR := hp.rangeGood.pos
  have hlast : pyGet p.range.items (-1) = .ok (((w - 1 + t.qs : Nat) : Int)) := by
    unfold pyGet
    have : p.range.items.length = w := by rw [hp.range]; simp
    simp only [show (-1 : Int) < 0 by omega, if_true, this]
    have h1 : ¬ ((w : Int) + -1 < 0) := by omega
    have h2 : ((w : Int) + -1).toNat = w - 1 := by omega
    rw [if_neg h1, h2, hp.range, List.getElem?_map, List.getElem?_range (by omega)]
    rfl
  obtain ⟨rb, e1, g1, i1, -⟩ := hp.rangeGood.push (pyRange (((w - 1 + t.qs : Nat) : Int) + 1) (((w - 1 + t.qs : Nat) : Int) + 1 + n))
  refine ⟨{ p with range := rb, queryShift := p.queryShift + n }, ?_, hp.nDim, g1, ?_, hp.left, hp.right, hp.ss, ?_, hp.old⟩
  · unfold shiftQuery
    rw [if_neg (by omega)]
    simp only [hlast, bind, Except.bind, e1, pure, Except.pure]
  · simp only [i1, hp.range, pyRange, MSeen.step]
    rw [show ((((w - 1 + t.qs : Nat) : Int) + 1 + n) - (((w - 1 + t.qs : Nat) : Int) + 1)).toNat = n by omega]
    apply List.ext_getElem?
    intro i
    simp only [lastN, List.length_append, List.length_map, List.length_range]
    rw [show w + n - w = n by omega]
    simp only [List.getElem?_drop, List.getElem?_append, List.length_map, List.length_range, List.getElem?_map]
    rcases Nat.lt_or_ge i w with hi | hi
    · rw [List.getElem?_range hi]
      by_cases hin : n + i < w
      · rw [if_pos hin, List.getElem?_range hin]
        simp; omega
      · rw [if_neg hin, List.getElem?_range (by omega)]
        simp; omega
    · rw [if_neg (by omega), List.getElem?_eq_none (by simp; omega), List.getElem?_eq_none (by simp; omega)]
      rfl
  · simp [hp.qs, MSeen.step]

theorem initialise_inv (memF : Nat → List (List (Fl K))) (memI : Nat → List (List Int)) (memR : Nat → List Int) (hF : ∀ n, (memF n).length = n) (hI : ∀ n, (memI n).length = n)
    (hR : ∀ n, (memR n).length = n) (scale : ℚ) (h1 : 1 ≤ scale) (h2 : scale ≤ 2) (D w : Nat) (hw : 0 < w) :
    ∃ p, initialise memF memI memR scale D w = .ok p ∧ p.Inv D w MSeen.init := by
  have hside : ∃ s : MDSide K, MDSide.init memF memI scale D w = .ok s ∧ s.Rep D w (fun k _ => (.pinf, -1, List.replicate (k + 1) (-1))) := by
    obtain ⟨m, e1, g1⟩ := fullBuffer_grid scale h1 h2 D w hw (.pinf : Fl K) (memF (RB.capacity scale w)) (hF _)
    obtain ⟨i, e2, g2⟩ := fullBuffer_grid scale h1 h2 D w hw (-1 : Int) (memI (RB.capacity scale w)) (hI _)
    have hk : ∀ k : Nat, ∃ rb, CMP.fullBuffer (k + 1) w (-1 : Int) (memI (RB.capacity scale w)) = .ok rb ∧ rb.Grid (k + 1) w (fun _ _ => -1) :=
      fun k => fullBuffer_grid scale h1 h2 (k + 1) w hw (-1 : Int) (memI (RB.capacity scale w)) (hI _)
    choose f hf1 hf2 using hk
    have e3 := mapM_ok_map (fun k => CMP.fullBuffer (k + 1) w (-1 : Int) (memI (RB.capacity scale w))) f (List.range D) (fun k _ => hf1 k)
    refine ⟨⟨m, i, (List.range D).map f⟩, ?_, g1, g2, by simp, ?_⟩
    · unfold MDSide.init
      simp only [e1, e2, e3, bind, Except.bind]
      rfl
    · intro k hk
      refine ⟨f k, by rw [List.getElem?_map, List.getElem?_range hk]; rfl, (hf2 k).good, (hf2 k).lead, ?_⟩
      rw [(hf2 k).items, gridCols]
      refine List.map_congr_left fun c _ => ?_
      rw [List.map_const', List.length_range]
  obtain ⟨s, e1, r1⟩ := hside
  have hinv : ∀ left, s.Inv D w (fun _ c => (MSeen.init : MSeen K).sel left ((c + (MSeen.init : MSeen K).ss : Nat) : Int)) := by
    intro left
    refine ⟨_, r1, fun k _ c _ => ⟨by simp, ?_, .inl ⟨rfl, rfl, rfl⟩⟩⟩
    rintro x ⟨hx, -⟩
    exact absurd hx (by simp [MSeen.init])
  have hlen : (pyRange 0 (w : Int)).length = w := by simp [pyRange]
  obtain ⟨rb, e2, g2, i2⟩ := RB.init_good_scale scale h1 h2 (pyRange 0 (w : Int)) (by
    intro h
    rw [h] at hlen
    simp at hlen; omega) false (memR (RB.capacity scale w)) (by rw [hlen]; exact hR _)
  rw [hlen] at g2
  refine ⟨{ nDim := D, range := rb, left := s, right := s, seriesShift := 0, queryShift := 0 }, ?_, rfl, g2, ?_, hinv true, hinv false, rfl, rfl, ?_⟩
  · unfold initialise
    rw [if_neg (by exact not_lt.mpr h1)]
    simp only [e1, e2, bind, Except.bind]
    rfl
  · rw [i2]
    simp [pyRange, MSeen.init]
  · intro x hx
    exact absurd hx (by simp [MSeen.init])

/-! ### Histories -/

/-- One call on the model. -/
def deliver (argsort : List (Fl K) → List Nat) (D : Nat) (p : MDMP K) : MDelivery K → Except PyErr (MDMP K)
  | .diag d vals => p.processDiagonal argsort d D vals
  | .column c vals => p.processColumn argsort c D vals
  | .shiftSeries n => p.shiftSeries n
  | .shiftQuery n => p.shiftQuery n

/-- A history on the model. -/
def run (argsort : List (Fl K) → List Nat) (D : Nat) (p : MDMP K) (ds : List (MDelivery K)) : Except PyErr (MDMP K) := ds.foldlM (deliver argsort D) p

end MDMP

/-- A column that the profile handles: inside the window, `D` channels, no NaN and no `-inf`. -/
def Spec.ColumnOk (D w : Nat) (c : Nat) (vals : List (List (Fl K))) : Prop :=
  c < w ∧ vals ≠ [] ∧ ∀ vec ∈ vals, vec.length = D ∧ ∀ x ∈ vec, x ≠ .ninf ∧ x ≠ .nan

/-- A diagonal that the profile handles: inside a square window, `D` channels, no negative distance, on the same side of the main diagonal of the streams as of
the main diagonal of the window. -/
def Spec.DiagonalOk (D w : Nat) (t : MSeen K) (d : Int) (vals : List (List (Fl K))) : Prop :=
  d.toNat + vals.length ≤ w ∧ (-d).toNat + vals.length ≤ w ∧ (∀ vec ∈ vals, vec.length = D ∧ ∀ x ∈ vec, .fin 0 ≤ x) ∧ (0 ≤ d ↔ 0 ≤ d + t.ss - t.qs)

/-- Every call of the history is a column or diagonal that the profile handles, or a shift. -/
def Spec.HistoryOk (D w : Nat) : MSeen K → List (MDelivery K) → Prop
  | _, [] => True
  | t, .column c vals :: ds => ColumnOk D w c vals ∧ HistoryOk D w (t.step (.column c vals)) ds
  | t, .diag d vals :: ds => DiagonalOk D w t d vals ∧ HistoryOk D w (t.step (.diag d vals)) ds
  | t, .shiftSeries n :: ds => HistoryOk D w (t.step (.shiftSeries n)) ds
  | t, .shiftQuery n :: ds => HistoryOk D w (t.step (.shiftQuery n)) ds

namespace MDMP
variable [IsStrictOrderedRing K]

theorem run_inv (argsort : List (Fl K) → List Nat) (has : ∀ l, IsArgsort l (argsort l)) (D w : Nat) : ∀ (ds : List (MDelivery K)) (p : MDMP K) (t : MSeen K),
    p.Inv D w t → HistoryOk D w t ds → ∃ p', p.run argsort D ds = .ok p' ∧ p'.Inv D w (t.run ds)
  | [], p, t, h, _ => ⟨p, rfl, h⟩
  | x :: ds, p, t, h, hv => by
    have key : ∃ p1, p.deliver argsort D x = .ok p1 ∧ p1.Inv D w (t.step x) ∧ HistoryOk D w (t.step x) ds := by
      cases x with
      | column c vals =>
        obtain ⟨⟨h1, h2, h3⟩, h4⟩ := hv
        obtain ⟨p1, e1, e2⟩ := processColumn_inv h argsort has c h1 vals h2 h3
        exact ⟨p1, e1, e2, h4⟩
      | diag d vals =>
        obtain ⟨⟨h1, h2, h3, h4⟩, h5⟩ := hv
        obtain ⟨p1, e1, e2⟩ := processDiagonal_inv h argsort has d vals h1 h2 h3 h4
        exact ⟨p1, e1, e2, h5⟩
      | shiftSeries n =>
        obtain ⟨p1, e1, e2⟩ := shiftSeries_inv h n
        exact ⟨p1, e1, e2, hv⟩
      | shiftQuery n =>
        obtain ⟨p1, e1, e2⟩ := shiftQuery_inv h n
        exact ⟨p1, e1, e2, hv⟩
    obtain ⟨p1, e1, e2, e3⟩ := key
    obtain ⟨p2, f1, f2⟩ := run_inv argsort has D w ds p1 _ e2 e3
    refine ⟨p2, ?_, f2⟩
    unfold run at f1 ⊢
    rw [List.foldlM_cons, e1]
    exact f1

end MDMP

/-- What a reader of one side finds for dimension count `k + 1` at window column `c`: value, row and dimensions. -/
def MDSide.read (s : MDSide K) (k c : Nat) : Option (Fl K × Int × List Int) := do
  let a ← s.mp.items[c]?
  let v ← a[k]?
  let b ← s.pi.items[c]?
  let i ← b[k]?
  let rb ← s.dm[k]?
  let d ← rb.items[c]?
  return (v, i, d)

/-- What a reader of the merged profile finds. -/
def MDMP.readMerged (p : MDMP K) (k c : Nat) : Option (Fl K × Int × List Int) := do
  let a ← p.merged[c]?
  let v ← a[k]?
  let b ← p.mergedIdx[c]?
  let i ← b[k]?
  let ds ← p.mergedDims.toOption
  let rb ← ds[k]?
  let d ← rb[c]?
  return (v, i, d)

theorem MDSide.Rep.read {s : MDSide K} {D w : Nat} {F : Nat → Nat → Fl K × Int × List Int} (h : s.Rep D w F) (k c : Nat) (hk : k < D) (hc : c < w) : s.read k c = some (F k c) := by
  obtain ⟨rb, h1, -, -, h2⟩ := h.dm k hk
  unfold MDSide.read
  rw [h.mp.items, h.pi.items, h1]
  simp [gridCols, List.getElem?_map, List.getElem?_range hc, List.getElem?_range hk, h2]

theorem MDMP.readMerged_eq {p : MDMP K} {D w : Nat} (hD : p.nDim = D) {F G : Nat → Nat → Fl K × Int × List Int} (hl : p.left.Rep D w F) (hr : p.right.Rep D w G) (k c : Nat)
    (hk : k < D) (hc : c < w) : p.readMerged k c = some (if Fl.ltF (F k c).1 (G k c).1 then F k c else G k c) := by
  have e1 : p.merged = (List.range w).map fun c => (List.range D).map fun k => if Fl.ltF (F k c).1 (G k c).1 then (F k c).1 else (G k c).1 := by
    unfold merged
    rw [hl.mp.items, hr.mp.items, gridCols, gridCols, List.zipWith_map, List.zipWith_self]
    refine List.map_congr_left fun c _ => ?_
    rw [List.zipWith_map, List.zipWith_self]
  have e2 : p.mergedIdx = (List.range w).map fun c => (List.range D).map fun k => if Fl.ltF (F k c).1 (G k c).1 then (F k c).2.1 else (G k c).2.1 := by
    unfold mergedIdx whereLess
    rw [hl.mp.items, hr.mp.items, hl.pi.items, hr.pi.items, gridCols, gridCols, gridCols, gridCols, List.zip_map', List.zip_map', List.zipWith_map, List.zipWith_self]
    refine List.map_congr_left fun c _ => ?_
    simp only
    rw [List.zip_map', List.zip_map', List.zipWith_map, List.zipWith_self]
  have e3 : p.mergedDims = .ok ((List.range D).map fun k => (List.range w).map fun c => if Fl.ltF (F k c).1 (G k c).1 then (F k c).2.2 else (G k c).2.2) := by
    unfold mergedDims
    rw [hD]
    refine mapM_ok_map _ _ _ fun k hk => ?_
    have hk := List.mem_range.mp hk
    obtain ⟨rl, a1, -, -, a2⟩ := hl.dm k hk
    obtain ⟨rr, b1, -, -, b2⟩ := hr.dm k hk
    have c1 : p.left.mp.items.mapM (fun x => pyGet x (k : Int)) = .ok ((List.range w).map fun c => (F k c).1) := by
      rw [hl.mp.items, gridCols, List.mapM_map, mapM_ok_map _ (fun c => (F k c).1)]
      intro c _
      exact pyGet_range_map D (fun i => (F i c).1) k hk
    have c2 : p.right.mp.items.mapM (fun x => pyGet x (k : Int)) = .ok ((List.range w).map fun c => (G k c).1) := by
      rw [hr.mp.items, gridCols, List.mapM_map, mapM_ok_map _ (fun c => (G k c).1)]
      intro c _
      exact pyGet_range_map D (fun i => (G i c).1) k hk
    unfold mergedDim
    simp only [c1, c2, bind, Except.bind, (pyGet_nat_ok _ _ _).mpr a1, (pyGet_nat_ok _ _ _).mpr b1, a2, b2]
    rw [List.zip_map', List.zip_map', List.zipWith_map, List.zipWith_self]
    rfl
  unfold readMerged
  rw [e1, e2, e3]
  simp only [Except.toOption, List.getElem?_map, List.getElem?_range hc, List.getElem?_range hk, Option.map_some, bind, Option.bind]
  split <;> rfl

theorem Spec.IsMDMin.merge {D k : Nat} {P Q : Set (MCell K)} {e e' : Fl K × Int × List Int} (h : IsMDMin D k P e) (h' : IsMDMin D k Q e') :
    IsMDMin D k (P ∪ Q) (if Fl.ltF e.1 e'.1 then e else e') := by
  by_cases hlt : Fl.ltF e.1 e'.1 = true
  · rw [if_pos hlt]
    obtain ⟨h1, -⟩ := (Fl.ltF_iff _ _).mp hlt
    refine ⟨h.number, ?_, ?_⟩
    · rintro x (hx | hx) T hT
      · exact h.lower x hx T hT
      · exact le_trans h1.le (h'.lower x hx T hT)
    · rcases h.attained with h2 | ⟨h2, x, hx, r⟩
      · exact .inl h2
      · exact .inr ⟨h2, x, .inl hx, r⟩
  · rw [if_neg hlt]
    rw [Bool.not_eq_true, Fl.ltF_false_iff _ _ h'.number] at hlt
    refine ⟨h'.number, ?_, ?_⟩
    · rintro x (hx | hx) T hT
      · exact le_trans hlt (h.lower x hx T hT)
      · exact h'.lower x hx T hT
    · rcases h'.attained with h2 | ⟨h2, x, hx, r⟩
      · exact .inl h2
      · exact .inr ⟨h2, x, .inr hx, r⟩

/-- The value of the best entry is determined by the cells. -/
theorem Spec.IsMDMin.value_unique {D k : Nat} {P : Set (MCell K)} {e e' : Fl K × Int × List Int} (h : IsMDMin D k P e) (h' : IsMDMin D k P e') : e.1 = e'.1 := by
  have key : ∀ {e e' : Fl K × Int × List Int}, IsMDMin D k P e → IsMDMin D k P e' → e.1 ≤ e'.1 := by
    intro e e' h h'
    rcases h'.attained with h2 | ⟨-, x, hx, T, hT, -, -, h2⟩
    · rw [h2.1]; exact (Fl.le_pinf_iff _).mpr h.number
    · rw [h2]; exact h.lower x hx T hT
  exact le_antisymm (key h h') (key h' h)

/-- All cells delivered for stream column `c`. -/
def Spec.MSeen.col (t : MSeen K) (c : Int) : Set (MCell K) := {x | x ∈ t.cells ∧ x.col = c}

/-- The profile answers for everything delivered: left, right and merged. -/
structure Spec.MDAnswers (D w : Nat) (t : MSeen K) (p : MDMP K) : Prop where
  left : ∀ k < D, ∀ c < w, ∃ e, p.left.read k c = some e ∧ IsMDMin D k (t.sel true ((c + t.ss : Nat) : Int)) e
  right : ∀ k < D, ∀ c < w, ∃ e, p.right.read k c = some e ∧ IsMDMin D k (t.sel false ((c + t.ss : Nat) : Int)) e
  merged : ∀ k < D, ∀ c < w, ∃ e, p.readMerged k c = some e ∧ IsMDMin D k (t.col ((c + t.ss : Nat) : Int)) e

theorem MDMP.Inv.answers {p : MDMP K} {D w : Nat} {t : MSeen K} (h : p.Inv D w t) : MDAnswers D w t p := by
  obtain ⟨F, l1, l2⟩ := h.left
  obtain ⟨G, r1, r2⟩ := h.right
  refine ⟨fun k hk c hc => ⟨_, l1.read k c hk hc, l2 k hk c hc⟩, fun k hk c hc => ⟨_, r1.read k c hk hc, r2 k hk c hc⟩,
    fun k hk c hc => ⟨_, MDMP.readMerged_eq h.nDim l1 r1 k c hk hc, ?_⟩⟩
  have := (l2 k hk c hc).merge (r2 k hk c hc)
  rwa [show t.sel true ((c + t.ss : Nat) : Int) ∪ t.sel false ((c + t.ss : Nat) : Int) = t.col ((c + t.ss : Nat) : Int) by
    ext x
    simp only [MSeen.sel, MSeen.col, Set.mem_union, Set.mem_ofPred_eq]
    by_cases hx : x.row ≤ x.col <;> simp [hx]] at this

/-- Only columns and shifts. -/
def Spec.ColumnsOnly (D w : Nat) (ds : List (MDelivery K)) : Prop :=
  ∀ x ∈ ds, match x with
    | .column c vals => ColumnOk D w c vals
    | .diag _ _ => False
    | _ => True

theorem Spec.ColumnsOnly.ok {D w : Nat} : ∀ {ds : List (MDelivery K)} (t : MSeen K), ColumnsOnly D w ds → HistoryOk D w t ds
  | [], _, _ => trivial
  | x :: ds, t, h => by
    have h0 := h x (List.mem_cons_self ..)
    have h1 : ColumnsOnly D w ds := fun y hy => h y (List.mem_cons_of_mem _ hy)
    cases x with
    | column c vals => exact ⟨h0, Spec.ColumnsOnly.ok _ h1⟩
    | diag d vals => exact absurd h0 (by simp)
    | shiftSeries n => exact Spec.ColumnsOnly.ok (t.step (.shiftSeries n)) h1
    | shiftQuery n => exact Spec.ColumnsOnly.ok (t.step (.shiftQuery n)) h1

section Theorems
variable [IsStrictOrderedRing K]

/-- **C53** After any columns in any order, of any height, mixed with any shifts, every entry of the left, right and merged profile is the minimum over the
delivered rows and over all choices of `k + 1` channels of the mean distance, which is the mean of the `k + 1` smallest distances; index and dimensions attain it.
Missing: columns containing NaN (`C53_nan_hides_values`). -/
theorem C53_columns_partial (argsort : List (Fl K) → List Nat) (has : ∀ l, IsArgsort l (argsort l)) (memF : Nat → List (List (Fl K))) (memI : Nat → List (List Int))
    (memR : Nat → List Int) (hF : ∀ n, (memF n).length = n) (hI : ∀ n, (memI n).length = n) (hR : ∀ n, (memR n).length = n) (scale : ℚ) (h1 : 1 ≤ scale) (h2 : scale ≤ 2)
    (D w : Nat) (hw : 0 < w) (ds : List (MDelivery K)) (hds : ColumnsOnly D w ds) :
    ∃ p p', MDMP.initialise memF memI memR scale D w = .ok p ∧ p.run argsort D ds = .ok p' ∧ MDAnswers D w (MSeen.init.run ds) p' := by
  obtain ⟨p, e1, e2⟩ := MDMP.initialise_inv memF memI memR hF hI hR scale h1 h2 D w hw
  obtain ⟨p', e3, e4⟩ := MDMP.run_inv argsort has D w ds p _ e2 (hds.ok _)
  exact ⟨p, p', e1, e3, e4.answers⟩

/-- The minimum over all choices of `k + 1` channels is the mean of the `k + 1` smallest distances. -/
theorem C53_smallest_channels (D k : Nat) (hk : k < D) (vec : List (Fl K)) (hD : vec.length = D) (hv : ∀ x ∈ vec, x ≠ .ninf) (o : List Nat) (ho : IsArgsort vec o) :
    (∃ T, Channels D (k + 1) T ∧ chanMean vec T = Fl.div (Fl.sum ((npSort vec).take (k + 1))) (.fin ((k : K) + 1))) ∧
      ∀ T, Channels D (k + 1) T → Fl.div (Fl.sum ((npSort vec).take (k + 1))) (.fin ((k : K) + 1)) ≤ chanMean vec T := by
  obtain ⟨h1, h2⟩ := MDSide.smallMean_attained D k hk vec hD o ho
  exact ⟨⟨_, h1, h2.symm⟩, MDSide.smallMean_le D k vec hD hv⟩

/-- **C54** The same for histories that also contain diagonals, as long as these lie in a square window, hold no negative distance and lie on the same side of the
main diagonal of the streams as of that of the window. Missing: the others, where the code fails (`C54_long_query_raises`, `C54_lag_raises`, `C54_right_polluted`,
`C54_negative_wrong`). -/
theorem C54_diagonals_partial (argsort : List (Fl K) → List Nat) (has : ∀ l, IsArgsort l (argsort l)) (memF : Nat → List (List (Fl K))) (memI : Nat → List (List Int))
    (memR : Nat → List Int) (hF : ∀ n, (memF n).length = n) (hI : ∀ n, (memI n).length = n) (hR : ∀ n, (memR n).length = n) (scale : ℚ) (h1 : 1 ≤ scale) (h2 : scale ≤ 2)
    (D w : Nat) (hw : 0 < w) (ds : List (MDelivery K)) (hds : HistoryOk D w MSeen.init ds) :
    ∃ p p', MDMP.initialise memF memI memR scale D w = .ok p ∧ p.run argsort D ds = .ok p' ∧ MDAnswers D w (MSeen.init.run ds) p' := by
  obtain ⟨p, e1, e2⟩ := MDMP.initialise_inv memF memI memR hF hI hR scale h1 h2 D w hw
  obtain ⟨p', e3, e4⟩ := MDMP.run_inv argsort has D w ds p _ e2 hds
  exact ⟨p, p', e1, e3, e4.answers⟩

/-- Two histories (for example diagonals and columns) that delivered the same cells show the same values. -/
theorem C54_same_as_columns_partial (argsort : List (Fl K) → List Nat) (has : ∀ l, IsArgsort l (argsort l)) (D w : Nat) (p q p' q' : MDMP K) (hp : p.Inv D w MSeen.init)
    (hq : q.Inv D w MSeen.init) (ds es : List (MDelivery K)) (hds : HistoryOk D w MSeen.init ds) (hes : HistoryOk D w MSeen.init es)
    (hsame : (MSeen.init.run ds : MSeen K) = MSeen.init.run es) (hp' : p.run argsort D ds = .ok p') (hq' : q.run argsort D es = .ok q') :
    ∀ k < D, ∀ c < w, (p'.left.read k c).map (·.1) = (q'.left.read k c).map (·.1) ∧ (p'.right.read k c).map (·.1) = (q'.right.read k c).map (·.1) ∧
      (p'.readMerged k c).map (·.1) = (q'.readMerged k c).map (·.1) := by
  obtain ⟨p1, e1, e2⟩ := MDMP.run_inv argsort has D w ds p _ hp hds
  obtain ⟨q1, f1, f2⟩ := MDMP.run_inv argsort has D w es q _ hq hes
  obtain rfl := Except.ok.inj (hp'.symm.trans e1)
  obtain rfl := Except.ok.inj (hq'.symm.trans f1)
  have a1 := e2.answers
  have a2 := f2.answers
  rw [← hsame] at a2
  intro k hk c hc
  obtain ⟨x1, b1, c1⟩ := a1.left k hk c hc
  obtain ⟨y1, b2, c2⟩ := a2.left k hk c hc
  obtain ⟨x2, b3, c3⟩ := a1.right k hk c hc
  obtain ⟨y2, b4, c4⟩ := a2.right k hk c hc
  obtain ⟨x3, b5, c5⟩ := a1.merged k hk c hc
  obtain ⟨y3, b6, c6⟩ := a2.merged k hk c hc
  rw [b1, b2, b3, b4, b5, b6]
  simp only [Option.map_some, c1.value_unique c2, c3.value_unique c4, c5.value_unique c6, and_self]

end Theorems
/-! ### Where the code fails -/

/-- An `np.argsort` for the examples. -/
def exArgsort {K : Type} [LinearOrder K] (l : List (Fl K)) : List Nat := (List.range l.length).insertionSort fun i j => l.getD i .nan ≤ l.getD j .nan

theorem exArgsort_ok {K : Type} [LinearOrder K] (l : List (Fl K)) : IsArgsort l (exArgsort l) := by
  refine ⟨List.perm_insertionSort _ _, ?_⟩
  let _ : Std.Total fun i j : Nat => l.getD i .nan ≤ l.getD j .nan := ⟨fun a b => le_total _ _⟩
  let _ : IsTrans Nat fun i j : Nat => l.getD i .nan ≤ l.getD j .nan := ⟨fun a b c => le_trans⟩
  have h := List.pairwise_insertionSort (fun i j : Nat => l.getD i .nan ≤ l.getD j .nan) (List.range l.length)
  refine h.imp ?_
  intro i j hij x y hx hy
  simpa [List.getD, hx, hy] using hij

/-- A profile of `D` channels over a window of `w` columns for the examples. -/
def exMDMP (D w : Nat) : Except PyErr (MDMP ℚ) := MDMP.initialise (fun n => List.replicate n []) (fun n => List.replicate n []) (fun n => List.replicate n 0) 1 D w

/-- Helps instance search. -/
instance : DecidableEq (List (List (Option (Fl ℚ × Int × List Int)))) :=
  haveI : DecidableEq (List (Option (Fl ℚ × Int × List Int))) := inferInstance
  instDecidableEqList

/-- Values, rows and dimensions of the left, right and merged profile after a history. -/
def exRead (D w : Nat) (ds : List (MDelivery ℚ)) : Except PyErr (List (List (Option (Fl ℚ × Int × List Int)))) :=
  ((exMDMP D w).bind fun p => p.run exArgsort D ds).map fun p =>
    [(List.range D).flatMap fun k => (List.range w).map fun c => p.left.read k c, (List.range D).flatMap fun k => (List.range w).map fun c => p.right.read k c,
      (List.range D).flatMap fun k => (List.range w).map fun c => p.readMerged k c]

/-- **C53 fails with NaN**: a NaN in one row hides the distance 1 in the other. -/
theorem C53_nan_hides_values : exRead 1 2 [.column 1 [[.nan], [.fin 1]]] =
    .ok [[some (.pinf, -1, [-1]), some (.pinf, -1, [-1])], [some (.pinf, -1, [-1]), some (.pinf, -1, [-1])], [some (.pinf, -1, [-1]), some (.pinf, -1, [-1])]] ∧
    ∀ e, e.1 = .pinf → ¬ IsMDMin 1 0 ((MSeen.init.run [MDelivery.column 1 [[.nan], [.fin (1 : ℚ)]]]).sel true 1) e := by
  refine ⟨by decide +kernel, fun e he h => ?_⟩
  have := h.lower ⟨1, 1, [.fin 1]⟩ ⟨.inr ⟨1, rfl, rfl, rfl⟩, rfl, rfl⟩ [0] ⟨by simp, rfl, by simp⟩
  rw [he] at this
  revert this
  decide +kernel

/-- **C54 fails for queries longer than the series**: 3 rows, 2 columns, the diagonal below the main one raises `IndexError`. -/
theorem C54_long_query_raises : exRead 1 2 [.diag (-1) [[.fin 1], [.fin 2]]] = .error .indexError := by decide +kernel

/-- **C54 fails when the query is ahead of the series** (`shift_query` before `shift_series`): every diagonal that starts on or above the main diagonal of the window
but lies below that of the streams raises `IndexError`. -/
theorem C54_lag_raises (argsort : List (Fl K) → List Nat) (D : Nat) (hD : 0 < D) (p : MDMP K) (d : Int) (hd : 0 ≤ d) (hs : d + (p.seriesShift - p.queryShift) < 0)
    (vals : List (List (Fl K))) : p.processDiagonal argsort d D vals = .error .indexError := by
  unfold MDMP.processDiagonal
  simp only [show ¬ d + (p.seriesShift - p.queryShift) ≥ 0 by omega, if_false]
  rw [if_pos ⟨hd, by omega⟩]

/-- Such a state is reached by one query shift. -/
example : ((exMDMP 1 2).bind fun p => p.run exArgsort 1 [.shiftQuery 1]).map (fun p => p.seriesShift - p.queryShift) = .ok (-1) ∧
    exRead 1 2 [.shiftQuery 1, .diag 0 [[.fin 1], [.fin 2]]] = .error .indexError := by decide +kernel

/-- **C54 fails when the series is ahead**: one series shift, then the diagonal below the main one of the window, which is the main diagonal of the streams. Its
distances 1 belong to the left profile only; 1 + 1 appears in the right profile. -/
theorem C54_right_polluted : exRead 1 2 [.shiftSeries 1, .diag (-1) [[.fin 1]]] =
      .ok [[some (.fin 1, 1, [0]), some (.pinf, -1, [-1])], [some (.fin 2, 1, [0]), some (.pinf, -1, [-1])], [some (.fin 1, 1, [0]), some (.pinf, -1, [-1])]] ∧
    (MSeen.init.run [MDelivery.shiftSeries 1, .diag (-1) [[.fin (1 : ℚ)]]]).sel false 1 = ∅ := by
  refine ⟨by decide +kernel, ?_⟩
  ext x
  simp only [MSeen.sel, Set.mem_ofPred_eq, Set.mem_empty_iff_false, iff_false]
  rintro ⟨h1 | ⟨k, -, h3, h4⟩, h5, h6⟩
  · exact h1
  · simp [MSeen.step, MSeen.init] at h3 h4 h5 h6
    omega

/-- **C54 fails for negative values**: -1 becomes -2. -/
theorem C54_negative_wrong : exRead 1 1 [.diag 0 [[.fin (-1)]]] = .ok [[some (.fin (-2), 0, [0])], [some (.pinf, -1, [-1])], [some (.fin (-2), 0, [0])]] := by decide +kernel

/-- The hypotheses of C53 and C54 are met by histories with two channels, ties, infinities, shifts and partial columns; the profiles read as expected. -/
example : ColumnsOnly (K := ℚ) 2 3 [.column 2 [[.fin 4, .fin 2], [.fin 1, .pinf], [.fin 3, .fin 3], [.fin 0, .fin 9]], .shiftSeries 1, .shiftQuery 1, .column 0 [[.fin 5, .fin 5]]] ∧
    exRead 2 3 [.column 2 [[.fin 4, .fin 2], [.fin 1, .pinf], [.fin 3, .fin 3], [.fin 0, .fin 9]], .shiftSeries 1, .shiftQuery 1, .column 0 [[.fin 5, .fin 5]]] =
      .ok [[some (.fin 5, 1, [0]), some (.fin 1, 1, [0]), some (.pinf, -1, [-1]), some (.fin 5, 1, [0, 1]), some (.fin 3, 0, [1, 0]), some (.pinf, -1, [-1, -1])],
        [some (.pinf, -1, [-1]), some (.fin 0, 3, [0]), some (.pinf, -1, [-1]), some (.pinf, -1, [-1, -1]), some (.fin (9 / 2), 3, [0, 1]), some (.pinf, -1, [-1, -1])],
        [some (.fin 5, 1, [0]), some (.fin 0, 3, [0]), some (.pinf, -1, [-1]), some (.fin 5, 1, [0, 1]), some (.fin 3, 0, [1, 0]), some (.pinf, -1, [-1, -1])]] := by
  constructor
  · intro x hx
    simp only [List.mem_cons, List.not_mem_nil, or_false] at hx
    rcases hx with rfl | rfl | rfl | rfl
    · exact ⟨by omega, by simp, by simp⟩
    · trivial
    · trivial
    · exact ⟨by omega, by simp, by simp⟩
  · decide +kernel

example : HistoryOk (K := ℚ) 2 2 MSeen.init [.diag (-1) [[.fin 4, .fin 2]], .diag 0 [[.fin 1, .nan], [.pinf, .fin 3]], .shiftSeries 1, .shiftQuery 1, .diag 1 [[.fin 7, .fin 5]]] ∧
    exRead 2 2 [.diag (-1) [[.fin 4, .fin 2]], .diag 0 [[.fin 1, .nan], [.pinf, .fin 3]], .shiftSeries 1, .shiftQuery 1, .diag 1 [[.fin 7, .fin 5]]] =
      .ok [[some (.fin 3, 1, [1]), some (.fin 5, 1, [1]), some (.pinf, -1, [-1, -1]), some (.fin 6, 1, [1, 0])],
        [some (.pinf, -1, [-1]), some (.pinf, -1, [-1]), some (.pinf, -1, [-1, -1]), some (.pinf, -1, [-1, -1])],
        [some (.fin 3, 1, [1]), some (.fin 5, 1, [1]), some (.pinf, -1, [-1, -1]), some (.fin 6, 1, [1, 0])]] := by
  constructor
  · refine ⟨⟨by simp, by simp, ?_, by simp [MSeen.init]⟩, ⟨by simp, by simp, ?_, by simp [MSeen.init, MSeen.step]⟩, ⟨by simp, by simp, ?_, by simp [MSeen.init, MSeen.step]⟩, trivial⟩
    all_goals
      intro vec hvec
      simp only [List.mem_cons, List.not_mem_nil, or_false] at hvec
      rcases hvec with rfl | rfl <;> exact ⟨rfl, by decide +kernel⟩
  · decide +kernel

/-- `C53_columns_partial`. -/
example := C53_columns_partial (K := ℚ) exArgsort exArgsort_ok (fun n => List.replicate n []) (fun n => List.replicate n []) (fun n => List.replicate n 0) (by simp) (by simp) (by simp) 1
  (by norm_num) (by norm_num) 2 3 (by decide) [.column 2 [[.fin 4, .fin 2], [.fin 1, .pinf]], .shiftSeries 1, .column 0 [[.fin 5, .fin 5]]] (by
    intro x hx
    simp only [List.mem_cons, List.not_mem_nil, or_false] at hx
    rcases hx with rfl | rfl | rfl
    · exact ⟨by omega, by simp, by simp⟩
    · trivial
    · exact ⟨by omega, by simp, by simp⟩)

/-- `C53_smallest_channels`: the two smallest of three. -/
example := C53_smallest_channels (K := ℚ) 3 1 (by decide) [.fin 4, .pinf, .fin 2] rfl (by simp) (exArgsort [.fin 4, .pinf, .fin 2]) (exArgsort_ok _)

/-- `C54_diagonals_partial`. -/
example := C54_diagonals_partial (K := ℚ) exArgsort exArgsort_ok (fun n => List.replicate n []) (fun n => List.replicate n []) (fun n => List.replicate n 0) (by simp) (by simp) (by simp) 1
  (by norm_num) (by norm_num) 2 2 (by decide) [.diag (-1) [[.fin 4, .fin 2]], .diag 0 [[.fin 1, .nan], [.pinf, .fin 3]]] (by
    refine ⟨⟨by simp, by simp, ?_, by simp [MSeen.init]⟩, ⟨by simp, by simp, ?_, by simp [MSeen.init, MSeen.step]⟩, trivial⟩
    all_goals
      intro vec hvec
      simp only [List.mem_cons, List.not_mem_nil, or_false] at hvec
      rcases hvec with rfl | rfl <;> exact ⟨rfl, by decide +kernel⟩)

/-- `C54_same_as_columns_partial` for the two by two matrix, delivered by diagonals and by columns. -/
example (p q p' q' : MDMP ℚ) (hp : exMDMP 2 2 = .ok p) (hq : exMDMP 2 2 = .ok q)
    (hp' : p.run exArgsort 2 [.diag 1 [[.fin 5, .fin 5]], .diag (-1) [[.fin 1, .fin 3]], .diag 0 [[.fin 4, .fin 2], [.fin 7, .fin 0]]] = .ok p')
    (hq' : q.run exArgsort 2 [.column 0 [[.fin 4, .fin 2], [.fin 1, .fin 3]], .column 1 [[.fin 5, .fin 5], [.fin 7, .fin 0]]] = .ok q') :=
  have key : ∀ r, exMDMP 2 2 = .ok r → r.Inv 2 2 MSeen.init := fun r hr => by
    obtain ⟨x, e1, e2⟩ := MDMP.initialise_inv (K := ℚ) (fun n => List.replicate n []) (fun n => List.replicate n []) (fun n => List.replicate n 0) (by simp) (by simp) (by simp) 1
      (by norm_num) (by norm_num) 2 2 (by decide)
    cases hr.symm.trans e1
    exact e2
  C54_same_as_columns_partial exArgsort exArgsort_ok 2 2 p q p' q' (key p hp) (key q hq) _ _ (by
    refine ⟨⟨by simp, by simp, ?_, by simp [MSeen.init]⟩, ⟨by simp, by simp, ?_, by simp [MSeen.init, MSeen.step]⟩, ⟨by simp, by simp, ?_, by simp [MSeen.init, MSeen.step]⟩, trivial⟩
    all_goals
      intro vec hvec
      simp only [List.mem_cons, List.not_mem_nil, or_false] at hvec
      rcases hvec with rfl | rfl <;> exact ⟨rfl, by decide +kernel⟩) (by
    refine ⟨⟨by simp, by simp, ?_⟩, ⟨by simp, by simp, ?_⟩, trivial⟩
    all_goals
      intro vec hvec
      simp only [List.mem_cons, List.not_mem_nil, or_false] at hvec
      rcases hvec with rfl | rfl <;> exact ⟨rfl, by decide +kernel⟩) (by
    have two : ∀ (a b v : List (Fl ℚ)) (P : Nat → Prop), (∃ k : Nat, [a, b][k]? = some v ∧ P k) ↔ v = a ∧ P 0 ∨ v = b ∧ P 1 := fun a b v P => by
      constructor
      · rintro ⟨_ | _ | k, h, hP⟩
        · exact .inl ⟨(Option.some.inj h).symm, hP⟩
        · exact .inr ⟨(Option.some.inj h).symm, hP⟩
        · simp at h
      · rintro (⟨rfl, h⟩ | ⟨rfl, h⟩)
        · exact ⟨0, rfl, h⟩
        · exact ⟨1, rfl, h⟩
    have one : ∀ (a v : List (Fl ℚ)) (P : Nat → Prop), (∃ k : Nat, [a][k]? = some v ∧ P k) ↔ v = a ∧ P 0 := fun a v P => by
      constructor
      · rintro ⟨_ | k, h, hP⟩
        · exact ⟨(Option.some.inj h).symm, hP⟩
        · simp at h
      · rintro ⟨rfl, h⟩
        exact ⟨0, rfl, h⟩
    simp only [MSeen.run, List.foldl_cons, List.foldl_nil, MSeen.step, MSeen.init, MDelivery.cells, MSeen.mk.injEq, true_and]
    ext x
    simp only [Set.mem_union, Set.mem_empty_iff_false, Set.mem_ofPred_eq, false_or, one, two]
    norm_num
    tauto) hp' hq'

end Verif
