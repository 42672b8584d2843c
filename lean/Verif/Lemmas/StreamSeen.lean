import Verif.Spec.StreamFeed
import Verif.Lemmas.Windows
import Verif.Lemmas.Serves
import Verif.Props.EndToEnd
import Verif.Props.ShiftingProfile

/-!
What a consumer of one generator has seen during a streaming calculation.
-/

namespace Verif
open Spec
variable {α G K : Type}

theorem events_single (m N : Nat) (M : Option Nat) (b : Int) (D : Nat → List α → List α → Fl K) (id : Nat) (u : MSt α) (op : MOp α) :
    u.events m N M b D [id] op = (u.deliveries m N M b (D id) op).map Delivery.event := by
  cases op with
  | series v =>
    simp only [MSt.events, MSt.deliveries]
    split
    · rfl
    · cases M <;> rfl
  | query v =>
    simp only [MSt.events, MSt.deliveries]
    split <;> rfl
  | columns k =>
    simp only [MSt.events, MSt.deliveries, List.map_map]
    refine List.map_congr_left fun i _ => ?_
    simp [Delivery.event]

theorem allEvents_single (m N : Nat) (M : Option Nat) (b : Int) (D : Nat → List α → List α → Fl K) (id : Nat) (us : List (MOp α)) (u : MSt α) :
    MSt.allEvents m N M b D [id] u us = (MSt.allDeliveries m N M b (D id) u us).map Delivery.event := by
  induction us generalizing u with
  | nil => rfl
  | cons x us ih => simp only [MSt.allEvents, MSt.allDeliveries, List.map_append, events_single, ih]

/-- Deliveries are consistent with the calls made so far. -/
structure SeenFits (m N : Nat) (M : Option Nat) (b : Int) (D : List α → List α → Fl K) (u : MSt α) (t : Seen K) : Prop where
  ss : t.ss = u.s.length - N
  qs : t.qs = u.q.length - M.getD N
  self : M = none → u.q = u.s
  done : ∀ r c, u.done r c → c < u.next ∧ c + m ≤ u.s.length ∧ r + m ≤ u.q.length
  mem : ∀ x, x ∈ t.cells ↔ ∃ r c : Nat, u.done r c ∧ x = ⟨r, c, u.cell D m b r c⟩
  order : t.cells.Pairwise fun x y => x.col = y.col → x.row < y.row

theorem SeenFits.init (m N : Nat) (M : Option Nat) (b : Int) (D : List α → List α → Fl K) : SeenFits m N M b D (MSt.init : MSt α) Seen.init := by
  refine ⟨by simp [MSt.init, Seen.init], by simp [MSt.init, Seen.init], fun _ => rfl, ?_, ?_, by simp [Seen.init]⟩ <;> simp [MSt.init, Seen.init]

theorem runWith_columns (f : Nat → Nat → Delivery K → List (Cell K)) (g : Nat → Nat) (vals : Nat → List (Fl K)) (l : List Nat) (t : Seen K) :
    t.runWith f (l.map fun i => .column (g i) (vals i)) = { t with cells := t.cells ++ l.flatMap fun i => f t.ss t.qs (.column (g i) (vals i)) } := by
  induction l generalizing t with
  | nil => simp [Seen.runWith]
  | cons i l ih =>
    have : t.runWith f ((i :: l).map fun i => .column (g i) (vals i)) =
        (t.stepWith f (.column (g i) (vals i))).runWith f (l.map fun i => .column (g i) (vals i)) := rfl
    rw [this, ih]
    simp [Seen.stepWith]

theorem cell_append (m : Nat) (b : Int) (D : List α → List α → Fl K) (u u' : MSt α) (r c : Nat) (x y : List α) (hs : u'.s = u.s ++ x)
    (hq : u'.q = u.q ++ y) (hc : c + m ≤ u.s.length) (hr : r + m ≤ u.q.length) : u'.cell D m b r c = u.cell D m b r c := by
  unfold MSt.cell
  rw [hs, hq, List.drop_append_of_le_length (by omega), List.take_append_of_le_length (by simp; omega),
    List.drop_append_of_le_length (by omega), List.take_append_of_le_length (by simp; omega)]

theorem SeenFits.step {m N : Nat} {M : Option Nat} {b : Int} {D : List α → List α → Fl K} (hm0 : 0 < m) {u : MSt α} {t : Seen K}
    (h : SeenFits m N M b D u t) (op : MOp α) (hv : u.Valid m M op) :
    SeenFits m N M b D (u.step m N M op) (t.run (u.deliveries m N M b D op)) := by
  cases op with
  | series v =>
    have hrun : t.run (u.deliveries m N M b D (.series v)) =
        ⟨t.ss + moved N u.s.length v.length, t.qs + (if M.isNone then moved N u.s.length v.length else 0), t.cells⟩ := by
      simp only [MSt.deliveries]
      split
      · rename_i h0
        simp [h0, Seen.run, Seen.runWith]
      · cases M <;> simp [Seen.run, Seen.runWith, Seen.stepWith]
    rw [hrun]
    have hss := h.ss
    have hqs := h.qs
    refine ⟨?_, ?_, ?_, ?_, ?_, h.order⟩
    · simp only [MSt.step, List.length_append, moved]; omega
    · cases M with
      | none =>
        have := congrArg List.length (h.self rfl)
        simp only [MSt.step, Option.isNone_none, if_true, List.length_append, moved, Option.getD_none] at hqs ⊢
        omega
      | some M' => simpa [MSt.step] using hqs
    · intro hM
      simp [MSt.step, hM, h.self hM]
    · intro r c hd
      have := h.done r c hd
      simp only [MSt.step, List.length_append]
      refine ⟨this.1, by omega, ?_⟩
      split
      · rw [List.length_append]; omega
      · exact this.2.2
    · intro x
      rw [h.mem x]
      refine exists_congr fun r => exists_congr fun c => and_congr_right fun hd => ?_
      have := h.done r c hd
      rw [cell_append m b D u (u.step m N M (.series v)) r c v (if M.isNone then v else []) rfl
        (by simp only [MSt.step]; split <;> simp) this.2.1 this.2.2]
  | query v =>
    have hM : M ≠ none := hv
    have hrun : t.run (u.deliveries m N M b D (.query v)) = ⟨t.ss, t.qs + moved (M.getD N) u.q.length v.length, t.cells⟩ := by
      simp only [MSt.deliveries]
      split
      · rename_i h0
        simp [h0, Seen.run, Seen.runWith]
      · simp [Seen.run, Seen.runWith, Seen.stepWith]
    rw [hrun]
    have hqs := h.qs
    refine ⟨h.ss, ?_, fun h => absurd h hM, ?_, ?_, h.order⟩
    · simp only [MSt.step, List.length_append, moved]; omega
    · intro r c hd
      have := h.done r c hd
      simp only [MSt.step, List.length_append]
      exact ⟨this.1, this.2.1, by omega⟩
    · intro x
      rw [h.mem x]
      refine exists_congr fun r => exists_congr fun c => and_congr_right fun hd => ?_
      have := h.done r c hd
      rw [cell_append m b D u (u.step m N M (.query v)) r c [] v (by simp [MSt.step]) rfl this.2.1 this.2.2]
  | columns k =>
    have hss := h.ss
    have hqs := h.qs
    set first := u.next - (u.s.length - N) with hfirst
    set stop := min k.toNat ((lastN N u.s).length + 1 - m) with hstop
    set hh := (lastN (M.getD N) u.q).length + 1 - m with hhh
    rw [lastN_length] at hstop hhh
    set vals : Nat → List (Fl K) := fun i => (List.range hh).map fun r =>
        u.cell D m b (r + (u.q.length - M.getD N)) (first + i + (u.s.length - N)) with hvals
    have hrun : t.run (u.deliveries m N M b D (.columns k)) =
        { t with cells := t.cells ++ (List.range (stop - first)).flatMap fun i => Delivery.cells t.ss t.qs (.column (first + i) (vals i)) } := by
      rw [Seen.run, ← runWith_columns]
      rfl
    have hcells : ∀ i, Delivery.cells t.ss t.qs (.column (first + i) (vals i)) = (List.range hh).map fun r =>
        (⟨((r + t.qs : Nat) : Int), ((first + i + t.ss : Nat) : Int), u.cell D m b (r + t.qs) (first + i + t.ss)⟩ : Cell K) := by
      intro i
      rw [hss, hqs]
      simp only [Delivery.cells, hvals]
      apply List.ext_getElem?
      intro j
      simp only [List.getElem?_map, List.getElem?_zipIdx]
      rcases Nat.lt_or_ge j hh with hj | hj
      · simp [List.getElem?_range hj]
      · simp [List.getElem?_eq_none (l := List.range hh) (by simpa using hj)]
    have hcell : ∀ r c, (u.step m N M (.columns k)).cell D m b r c = u.cell D m b r c := fun _ _ => rfl
    rw [hrun]
    refine ⟨hss, hqs, h.self, ?_, ?_, ?_⟩
    · rintro r c (hd | ⟨h1, h2, h3, h4⟩)
      · have := h.done r c hd
        refine ⟨?_, this.2.1, this.2.2⟩
        simp only [MSt.step]
        omega
      · rw [lastN_length] at h2
        simp only [MSt.step]
        rw [lastN_length]
        refine ⟨by omega, by omega, h4⟩
    · intro x
      simp only [hcells, hcell, List.mem_append, h.mem x, List.mem_flatMap, List.mem_map, List.mem_range]
      constructor
      · rintro (⟨r, c, h1, h2⟩ | ⟨i, h1, r, h2, rfl⟩)
        · exact ⟨r, c, .inl h1, h2⟩
        · refine ⟨r + t.qs, first + i + t.ss, .inr ⟨by omega, ?_, by omega, by omega⟩, rfl⟩
          rw [lastN_length]; omega
      · rintro ⟨r, c, h1 | ⟨h1, h2, h3, h4⟩, rfl⟩
        · exact .inl ⟨r, c, h1, rfl⟩
        · rw [lastN_length] at h2
          refine .inr ⟨c - t.ss - first, by omega, r - t.qs, by omega, ?_⟩
          rw [show r - t.qs + t.qs = r by omega, show first + (c - t.ss - first) + t.ss = c by omega]
    · rw [List.pairwise_append]
      refine ⟨h.order, ?_, ?_⟩
      · simp only [hcells]
        rw [List.pairwise_flatMap]
        refine ⟨fun i _ => ?_, ?_⟩
        · rw [List.pairwise_map]
          exact List.pairwise_lt_range.imp fun hlt _ => by simp only; omega
        · refine List.pairwise_lt_range.imp fun {i j} hlt x hx y hy he => ?_
          obtain ⟨r, -, rfl⟩ := List.mem_map.mp hx
          obtain ⟨r', -, rfl⟩ := List.mem_map.mp hy
          simp only at he
          omega
      · intro x hx y hy he
        obtain ⟨r, c, hd, rfl⟩ := (h.mem x).mp hx
        simp only [hcells, List.mem_flatMap, List.mem_map, List.mem_range] at hy
        obtain ⟨i, hi, r', hr', rfl⟩ := hy
        have := (h.done r c hd).1
        simp only at he
        omega

theorem Seen.run_append (t : Seen K) (a b : List (Delivery K)) : t.run (a ++ b) = (t.run a).run b := by
  simp [Seen.run, Seen.runWith, List.foldl_append]

theorem SeenFits.run {m N : Nat} {M : Option Nat} {b : Int} {D : List α → List α → Fl K} (hm0 : 0 < m) (us : List (MOp α)) (u : MSt α) (t : Seen K)
    (h : SeenFits m N M b D u t) (hv : u.All m N M (fun u op => u.Valid m M op) us) :
    SeenFits m N M b D (u.run m N M us) (t.run (MSt.allDeliveries m N M b D u us)) := by
  induction us generalizing u t with
  | nil => exact h
  | cons x us ih =>
    rw [MSt.allDeliveries, Seen.run_append]
    exact ih _ _ (h.step hm0 x hv.1) hv.2

/-- Every delivery fits the window and holds no NaN. -/
theorem allDeliveries_valid {m N : Nat} {M : Option Nat} {b : Int} {D : List α → List α → Fl K} (hm0 : 0 < m) (hD : ∀ x y, D x y ≠ .nan) (us : List (MOp α))
    (u : MSt α) (hself : M = none → u.q = u.s) (hM : ∀ M', M = some M' → m ≤ M') (hN : m ≤ N)
    (hv : u.All m N M (fun u op => u.Valid m M op) us) :
    ∀ d ∈ MSt.allDeliveries m N M b D u us, d.Valid (M.getD N + 1 - m) (N + 1 - m) ∧ d.ColumnClean := by
  induction us generalizing u with
  | nil => simp [MSt.allDeliveries]
  | cons x us ih =>
    have hself' : M = none → (u.step m N M x).q = (u.step m N M x).s := by
      intro h
      cases x with
      | series v => simp [MSt.step, h, hself h]
      | query v => exact absurd h hv.1
      | columns k => exact hself h
    intro d hd
    rw [MSt.allDeliveries, List.mem_append] at hd
    rcases hd with hd | hd
    · cases x with
      | series v =>
        simp only [MSt.deliveries] at hd
        split at hd
        · simp at hd
        · rcases List.mem_cons.mp hd with rfl | hd
          · exact ⟨trivial, trivial⟩
          · split at hd
            · rw [List.mem_singleton] at hd; subst hd; exact ⟨trivial, trivial⟩
            · simp at hd
      | query v =>
        simp only [MSt.deliveries] at hd
        split at hd
        · simp at hd
        · rw [List.mem_singleton] at hd; subst hd; exact ⟨trivial, trivial⟩
      | columns k =>
        simp only [MSt.deliveries] at hd
        obtain ⟨i, hi, rfl⟩ := List.mem_map.mp hd
        have hval : m ≤ u.s.length → m ≤ u.q.length := hv.1
        rw [List.mem_range, lastN_length] at hi
        have hMm : m ≤ M.getD N := by
          cases M with
          | none => exact hN
          | some M' => exact hM M' rfl
        refine ⟨⟨by omega, ?_, ?_⟩, ?_⟩
        · have : 0 < (lastN (M.getD N) u.q).length + 1 - m := by
            rw [lastN_length]
            have := hval (by omega)
            omega
          intro he
          have := congrArg List.length he
          simp only [List.length_map, List.length_range, List.length_nil] at this
          omega
        · simp only [List.length_map, List.length_range, lastN_length]; omega
        · intro hm
          obtain ⟨r, -, hr⟩ := List.mem_map.mp hm
          unfold MSt.cell at hr
          split at hr
          · cases hr
          · exact hD _ _ hr
    · exact ih _ hself' hv.2 d hd

/-- What the profile shows when the best of everything seen is shown. -/
theorem SeenFits.nearest [LinearOrder K] {m N : Nat} {M : Option Nat} {b : Int} {D : List α → List α → Fl K} (hD : ∀ x y, D x y ≠ .nan) {u : MSt α} {t : Seen K}
    (h : SeenFits m N M b D u t) (left : Bool) (c : Nat) (v : Fl K) (i : Int) (hb : IsBest (entriesFor t.cells ((c + t.ss : Nat) : Int) left) v i) :
    Nearest (fun r => u.done r (c + (u.s.length - N)) ∧ (decide (r ≤ c + (u.s.length - N)) = left)) (fun r => u.cell D m b r (c + (u.s.length - N))) v i := by
  rw [h.ss] at hb
  set C := c + (u.s.length - N) with hC
  have hne : ∀ r, u.cell D m b r C ≠ .nan := by
    intro r
    unfold MSt.cell
    split
    · simp
    · exact hD _ _
  have hmem : ∀ (r : Nat), u.done r C ∧ (decide (r ≤ C) = left) → (u.cell D m b r C, (r : Int)) ∈ entriesFor t.cells (C : Int) left := by
    intro r hr
    rw [mem_entriesFor]
    refine ⟨(h.mem _).mpr ⟨r, C, hr.1, rfl⟩, ?_⟩
    rw [← hr.2]; simp
  have hof : ∀ x i, (x, i) ∈ entriesFor t.cells (C : Int) left → ∃ r : Nat, i = r ∧ (u.done r C ∧ (decide (r ≤ C) = left)) ∧ u.cell D m b r C = x := by
    intro x i hx
    obtain ⟨h1, h2⟩ := (mem_entriesFor _ _ _ _ _).mp hx
    obtain ⟨r, c', h3, h4⟩ := (h.mem _).mp h1
    simp only [Cell.mk.injEq] at h4
    obtain ⟨rfl, h5, rfl⟩ := h4
    have : c' = C := by omega
    subst this
    exact ⟨r, rfl, ⟨h3, by rw [← h2]; simp⟩, rfl⟩
  have hsorted : (entriesFor t.cells (C : Int) left).Pairwise fun x y => x.2 < y.2 := by
    unfold entriesFor
    rw [List.pairwise_map, List.pairwise_filter]
    refine h.order.imp fun {x y} hxy hx hy => hxy ?_
    simp only [Bool.and_eq_true, decide_eq_true_eq] at hx hy
    rw [hx.1, hy.1]
  have hlow : ∀ r, u.done r C ∧ (decide (r ≤ C) = left) → v ≤ u.cell D m b r C := fun r hr => (hb.lower _ (hmem r hr)).resolve_left (hne r)
  rcases hb.attained with ⟨rfl, rfl⟩ | ⟨h1, pre, post, h2, h3⟩
  · refine .inl ⟨rfl, rfl, fun r hr => ?_⟩
    exact le_antisymm ((Fl.le_pinf_iff _).mpr (hne r)) (hlow r hr)
  · obtain ⟨r, rfl, h4, h5⟩ := hof v i (by rw [h2]; simp)
    refine .inr ⟨h1, r, rfl, h4, h5, fun r' hr' => ⟨hlow r' hr', fun hlt => ?_⟩⟩
    have h6 := hmem r' hr'
    rw [h2] at h6 hsorted
    rcases List.mem_append.mp h6 with h6 | h6
    · exact (h3 _ h6).resolve_left (hne r')
    · rw [List.pairwise_append, List.pairwise_cons] at hsorted
      rcases List.mem_cons.mp h6 with h6 | h6
      · simp only [Prod.mk.injEq] at h6; omega
      · have := hsorted.2.1.1 _ h6
        simp only at this; omega

end Verif
