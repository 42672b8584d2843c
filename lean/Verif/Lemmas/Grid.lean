import Verif.Model.ContextualMP
import Verif.Lemmas.RBGood
import Verif.Lemmas.Calculator
import Verif.Lemmas.Float
import Verif.Props.ShiftingProfile

/-!
Ring buffers holding a 2-D array.
-/

namespace Verif
open Spec
variable {α : Type}

/-- The columns of the `nq` × `ns` array `f`. -/
def gridCols (nq ns : Nat) (f : Nat → Nat → α) : List (List α) := (List.range ns).map fun j => (List.range nq).map fun i => f i j

/-- A full ring buffer holding the `nq` × `ns` array `f`. -/
structure RB.Grid (rb : RB (List α)) (nq ns : Nat) (f : Nat → Nat → α) : Prop where
  good : rb.Good ns
  lead : rb.lead = [nq]
  items : rb.items = gridCols nq ns f

theorem gridCols_congr {nq ns : Nat} {f g : Nat → Nat → α} (h : ∀ i < nq, ∀ j < ns, f i j = g i j) : gridCols nq ns f = gridCols nq ns g := by
  apply List.map_congr_left
  intro j hj
  apply List.map_congr_left
  intro i hi
  exact h i (by simpa using hi) j (by simpa using hj)

theorem pyGet_range_map (n : Nat) (f : Nat → α) (i : Nat) (hi : i < n) : pyGet ((List.range n).map f) (i : Int) = .ok (f i) := by
  rw [pyGet_nat_ok]; simp [hi]

theorem pySet_range_map (n : Nat) (f : Nat → α) (i : Nat) (hi : i < n) (x : α) :
    pySet ((List.range n).map f) (i : Int) x = .ok ((List.range n).map fun k => if k = i then x else f k) := by
  rw [pySet_nat_ok]
  refine ⟨by simpa using hi, ?_⟩
  apply List.ext_getElem?
  intro k
  rw [List.getElem?_set]
  rcases Nat.lt_or_ge k n with h | h
  · by_cases e : i = k
    · subst e; simp [h]
    · have e' : ¬ k = i := fun h => e h.symm
      simp [h, e, e']
  · have : ¬ i = k := by omega
    simp [h, this]

theorem RB.Grid.get {rb : RB (List α)} {nq ns : Nat} {f : Nat → Nat → α} (h : rb.Grid nq ns f) (i j : Nat) (hi : i < nq) (hj : j < ns) :
    rb.getEntry i j = .ok (f i j) := by
  unfold RB.getEntry
  rw [h.items, gridCols, pyGet_range_map _ _ _ hj]
  exact pyGet_range_map _ _ _ hi

theorem RB.Grid.congr {rb : RB (List α)} {nq ns : Nat} {f g : Nat → Nat → α} (h : rb.Grid nq ns f) (hfg : ∀ i < nq, ∀ j < ns, f i j = g i j) :
    rb.Grid nq ns g := ⟨h.good, h.lead, by rw [h.items]; exact gridCols_congr hfg⟩

theorem RB.Good.setItem_lead {rb : RB α} {N : Nat} (h : rb.Good N) {i : Int} {x : α} {w : List α} (hp : pySet rb.items i x = .ok w) :
    ∃ rb', rb.setItem i x = .ok rb' ∧ rb'.Good N ∧ rb'.items = w ∧ rb'.lead = rb.lead := by
  have := RB.setItem_spec rb h.wf i x
  rw [hp] at this
  obtain ⟨rb', h1, h2, h3, h4, h6, h5, -⟩ := this
  exact ⟨rb', h1, ⟨h2, by rw [h4, h.vmax], by rw [h5]; exact h.mem⟩, h3, h6⟩

theorem RB.Grid.set {rb : RB (List α)} {nq ns : Nat} {f : Nat → Nat → α} (h : rb.Grid nq ns f) (i j : Nat) (hi : i < nq) (hj : j < ns) (x : α) :
    ∃ rb', rb.setEntry i j x = .ok rb' ∧ rb'.Grid nq ns (fun a b => if a = i ∧ b = j then x else f a b) := by
  have e1 : pyGet rb.items (j : Int) = .ok ((List.range nq).map fun i => f i j) := by rw [h.items, gridCols, pyGet_range_map _ _ _ hj]
  have e2 := pySet_range_map nq (fun i => f i j) i hi x
  have e3 := pySet_range_map ns (fun j => (List.range nq).map fun i => f i j) j hj ((List.range nq).map fun k => if k = i then x else f k j)
  rw [show (List.range ns).map (fun j => (List.range nq).map fun i => f i j) = rb.items from h.items.symm] at e3
  obtain ⟨rb', g1, g2, g3, g4⟩ := h.good.setItem_lead e3
  refine ⟨rb', ?_, ⟨g2, by rw [g4, h.lead], ?_⟩⟩
  · unfold RB.setEntry
    simp only [e1, bind, Except.bind, e2]
    exact g1
  · rw [g3]
    apply List.map_congr_left
    intro b _
    by_cases hb : b = j
    · subst hb; simp
    · simp [hb]

theorem gridCols_length (nq ns : Nat) (f : Nat → Nat → α) : (gridCols nq ns f).length = ns := by simp [gridCols]

theorem RB.Grid.push {rb : RB (List α)} {nq ns : Nat} {f : Nat → Nat → α} (h : rb.Grid nq ns f) (k : Nat) (x : α) :
    ∃ rb' n, rb.pushArr [nq] (List.replicate k (List.replicate nq x)) = .ok (rb', n) ∧
      rb'.Grid nq ns (fun i j => if j + k < ns then f i (j + k) else x) := by
  obtain ⟨rb', h1, h2, h3, h4⟩ := h.good.push (List.replicate k (List.replicate nq x))
  refine ⟨rb', rb.items.length + (List.replicate k (List.replicate nq x)).length - ns, ?_, ⟨h2, by rw [h4, h.lead], ?_⟩⟩
  · unfold RB.pushArr
    rw [if_neg (by simp [h.lead])]
    exact h1
  · rw [h3, h.items, lastN, List.length_append, gridCols_length, List.length_replicate]
    apply List.ext_getElem?
    intro j
    rw [List.getElem?_drop, List.getElem?_append, gridCols_length]
    simp only [gridCols, List.getElem?_map, List.getElem?_replicate]
    rcases Nat.lt_or_ge j ns with hj | hj
    · by_cases hk : j + k < ns
      · rw [if_pos (by omega), List.getElem?_range (by omega), List.getElem?_range hj]
        simp only [Option.map_some, hk, if_true]
        rw [show ns + k - ns + j = j + k by omega]
      · rw [if_neg (by omega), if_pos (by omega), List.getElem?_range hj]
        simp only [Option.map_some, hk, if_false]
        rw [List.map_const', List.length_range]
    · rw [if_neg (by omega), if_neg (by omega), List.getElem?_eq_none (by simpa using hj)]
      rfl

theorem RB.init_good_lead (scale : ℚ) (h1 : 1 ≤ scale) (h2 : scale ≤ 2) (lead : List Nat) (data : List α) (hn : data ≠ []) (dt : Bool) (junk : List α)
    (hj : junk.length = capacity scale data.length) :
    ∃ rb, RB.init (some (lead, data)) none dt junk = .ok rb ∧ rb.Good data.length ∧ rb.items = data ∧ rb.lead = lead := by
  have hg := RB.mkEmpty_good_scale scale h1 h2 lead data.length junk (List.length_pos_iff.mpr hn) hj
  obtain ⟨rb, hp, hg', hit, hl⟩ := hg.push data
  refine ⟨rb, ?_, hg', ?_, hl⟩
  · have hl : (mkEmpty lead data.length junk).lead = lead := rfl
    simp [RB.init, pushArr, hp, hl, bind, Except.bind, pure, Except.pure]
  · rw [hit, mkEmpty_items, List.nil_append, lastN_of_le _ _ le_rfl]

theorem fullBuffer_grid (scale : ℚ) (h1 : 1 ≤ scale) (h2 : scale ≤ 2) (nq ns : Nat) (hns : 0 < ns) (x : α) (junk : List (List α))
    (hj : junk.length = RB.capacity scale ns) : ∃ rb, CMP.fullBuffer nq ns x junk = .ok rb ∧ rb.Grid nq ns (fun _ _ => x) := by
  obtain ⟨rb, e1, e2, e3, e4⟩ := RB.init_good_lead scale h1 h2 [nq] (List.replicate ns (List.replicate nq x)) (by
    intro h
    have := congrArg List.length h
    simp at this
    omega) false junk (by simpa using hj)
  refine ⟨rb, e1, by simpa using e2, e4, ?_⟩
  rw [e3, gridCols, List.map_const', List.map_const', List.length_range, List.length_range]

/-- `push` does not look at the view. -/
theorem RB.push_ignores_view (rb : RB α) (v : ViewRef α) (data : List α) (hd : data ≠ []) : ({ rb with view := v } : RB α).push data = rb.push data := by
  have h0 : ¬ data.length = 0 := fun h => hd (List.length_eq_zero_iff.mp h)
  unfold RB.push
  simp only [h0, if_false]
  by_cases h : rb.vlen < rb.vmax
  · simp only [h, if_true]
  · simp only [h, if_false, pure_bind]
    rfl

end Verif
