import Verif.Lemmas.ConsumerPairs
import Verif.Props.RadiusProfile
import Verif.Props.ThresholdCounter
import Verif.Model.Consumers
import Verif.Model.Batch
import Verif.Model.EndToEnd
import Verif.Model.Assembly
import Verif.Props.MatrixProfile
import Verif.Props.BatchRadius

/-!
# C114: counters and radius profiles agree
-/

namespace Verif
open Spec
variable {G K : Type} [LinearOrder K]

namespace NoExclusion

omit [LinearOrder K] in
theorem at_spec {vals : List (Fl K)} {i : Nat} (h : i < vals.length) : vals[i]? = some (at? vals i) := by simp [at?, h]

omit [LinearOrder K] in
theorem map_at (vals : List (Fl K)) : (List.range vals.length).map (at? vals) = vals := by
  apply List.ext_getElem?
  intro i
  rw [List.getElem?_map]
  rcases Nat.lt_or_ge i vals.length with h | h
  · rw [List.getElem?_range h, at_spec h]; rfl
  · rw [List.getElem?_eq_none (by simpa using h), List.getElem?_eq_none h]; rfl

omit [LinearOrder K] in
theorem filter_at (vals : List (Fl K)) (f : Fl K → Bool) : ((List.range vals.length).filter fun i => f (at? vals i)).map (at? vals) = vals.filter f := by
  conv_rhs => rw [← map_at vals, List.filter_map]
  rfl

omit [LinearOrder K] in
/-- The positions of all values with a property, in any order, each once. -/
theorem perm_filter {vals : List (Fl K)} {f : Fl K → Bool} {S : List Nat} (hn : S.Nodup) (h1 : ∀ i ∈ S, i < vals.length ∧ f (at? vals i) = true)
    (h2 : ∀ i < vals.length, f (at? vals i) = true → i ∈ S) : (S.map (at? vals)).Perm (vals.filter f) := by
  rw [← filter_at]
  refine List.Perm.map _ ((List.perm_ext_iff_of_nodup hn (List.nodup_range.filter _)).mpr fun i => ?_)
  rw [List.mem_filter, List.mem_range]
  exact ⟨fun h => h1 i h, fun h => h2 i h.1 h.2⟩

/-- A selection without exclusion zone has all values up to the threshold. -/
theorem selection_length {vals : List (Fl K)} {θ : Fl K} {S : List Nat} (h : IsSelection vals 0 θ S) (hθ : θ ≠ .nan) : S.length = vals.countP fun v => Fl.leF v θ := by
  have hn : S.Nodup := h.separated.imp fun {i j} hij e => by subst e; simp at hij
  have := perm_filter (f := fun v => Fl.leF v θ) hn (fun i hi => by
    obtain ⟨v, hv, hle⟩ := h.below i hi
    obtain ⟨hlt, rfl⟩ := List.getElem?_eq_some_iff.mp hv
    refine ⟨hlt, (Fl.leF_iff _ _).mpr ⟨?_, hθ⟩⟩
    rwa [show at? vals i = vals[i] by simp [at?, hlt]]) (fun i hi hle => by
    obtain ⟨j, hj, hij, -⟩ := h.exhaustive i _ (at_spec hi) ((Fl.leF_iff _ _).mp hle).1
    obtain rfl : j = i := by
      have := abs_nonneg ((j : Int) - i)
      have : |(j : Int) - i| = 0 := by omega
      have := abs_eq_zero.mp this
      omega
    exact hj)
  rw [List.countP_eq_length_filter, ← this.length_eq, List.length_map]

theorem leOne_sum (vals : List (Fl K)) (θ : Fl K) : (vals.map fun v => leOne (some v) (some θ)).sum = vals.countP fun v => Fl.leF v θ := by
  induction vals with
  | nil => rfl
  | cons v l ih =>
    rw [List.map_cons, List.sum_cons, ih, List.countP_cons]
    unfold leOne
    dsimp only
    split <;> simp_all [Nat.add_comm]

/-- Processing one column. -/
theorem tc_column (q : TC K) {c : Nat} (hc : c < q.w) (vals : List (Fl K)) : ∃ q', q.processColumn c [vals] = .ok q' ∧ q'.thresholds = q.thresholds ∧ q'.w = q.w ∧
    (∀ t j, j ≠ c → q'.counts t j = q.counts t j) ∧ ∀ (t : Nat) (θ : Fl K), q.thresholds[t]? = some θ → q'.counts t c = vals.countP fun v => Fl.leF v θ := by
  refine ⟨{ q with counts := fun t j => if j = c then (vals.map fun v => leOne (some v) q.thresholds[t]?).sum else q.counts t j }, ?_, rfl, rfl, fun t j hj => by simp [hj],
    fun t θ ht => ?_⟩
  · simp only [TC.processColumn, show pyGet [vals] 0 = .ok vals from rfl, bind, Except.bind, wrapIdx_nat _ _ hc]
    rfl
  · dsimp only
    rw [if_pos rfl, ht, leOne_sum]

/-- The indices that `lowest_value_idxs` gives without exclusion zone: the finite values in order, before the others. -/
theorem idxs_sorted {vals : List (Fl K)} (hi : Fl.ninf ∉ vals) {is : List Nat} (h1 : ∀ i ∈ is, ∃ x, vals[i]? = some (.fin x))
    (h2 : is.Pairwise (fun i j => ¬ Near 0 i j ∧ ∀ x y, vals[i]? = some (.fin x) → vals[j]? = some (.fin y) → x ≤ y))
    (h3 : ∀ j x, vals[j]? = some (.fin x) → ∃ i ∈ is, ∃ y, Near 0 i j ∧ vals[i]? = some (.fin y) ∧ y ≤ x) :
    npSort vals = is.map (at? vals) ++ npSort (vals.filter fun v => !v.isFinite) := by
  have hn : is.Nodup := h2.imp fun {i j} hij e => by subst e; exact hij.1 ⟨by omega, by omega⟩
  have hp := perm_filter (f := Fl.isFinite) hn (fun i hi => by
    obtain ⟨x, hx⟩ := h1 i hi
    refine ⟨(List.getElem?_eq_some_iff.mp hx).1, ?_⟩
    rw [show at? vals i = .fin x by simp [at?, hx]]; rfl) (fun i hi hf => by
    obtain ⟨x, hx⟩ : ∃ x, at? vals i = .fin x := by
      cases e : at? vals i with
      | fin x => exact ⟨x, rfl⟩
      | nan => rw [e] at hf; cases hf
      | pinf => rw [e] at hf; cases hf
      | ninf => rw [e] at hf; cases hf
    obtain ⟨j, hj, y, hnear, -⟩ := h3 i x ((at_spec hi).trans (by rw [hx]))
    obtain rfl : j = i := by unfold Near at hnear; omega
    exact hj)
  have hs : (is.map (at? vals)).Pairwise (· ≤ ·) := by
    rw [List.pairwise_map]
    refine h2.imp_of_mem fun {i j} hi hj hij => ?_
    obtain ⟨x, hx⟩ := h1 i hi
    obtain ⟨y, hy⟩ := h1 j hj
    rw [show at? vals i = .fin x by simp [at?, hx], show at? vals j = .fin y by simp [at?, hy]]
    exact (Fl.fin_le_fin _ _).mpr (hij.2 x y hx hy)
  refine List.Perm.eq_of_pairwise (le := (· ≤ ·)) (fun a b _ _ h1 h2 => le_antisymm h1 h2) (List.pairwise_insertionSort _ _) ?_ ?_
  · refine List.pairwise_append.mpr ⟨hs, List.pairwise_insertionSort _ _, fun a ha b hb => ?_⟩
    have ha := List.mem_filter.mp (hp.mem_iff.mp ha)
    have hb := List.mem_filter.mp ((List.perm_insertionSort _ _).mem_iff.mp hb)
    cases a with
    | fin x =>
      cases b with
      | fin y => exact absurd hb.2 (by simp [Fl.isFinite])
      | pinf => exact (Fl.le_pinf_iff _).mpr (by simp)
      | nan => exact Fl.le_nan _
      | ninf => exact absurd hb.1 hi
    | nan => exact absurd ha.2 (by simp [Fl.isFinite])
    | pinf => exact absurd ha.2 (by simp [Fl.isFinite])
    | ninf => exact absurd ha.2 (by simp [Fl.isFinite])
  · refine (List.perm_insertionSort _ vals).trans (((List.filter_append_perm Fl.isFinite vals).symm).trans ?_)
    exact hp.symm.append (List.perm_insertionSort _ _).symm

/-- Processing one column. -/
theorem rp0_column (p : RP0 K) (hne : p.track ≠ []) (hpos : ∀ k ∈ p.track, 0 ≤ k) (hs : p.track.Pairwise (· ≤ ·)) {c : Nat} (hc : c < p.w) (vals : List (Fl K)) :
    ∃ p', p.processColumn c [vals] = .ok p' ∧ p'.track = p.track ∧ p'.w = p.w ∧ (∀ t j, j ≠ c → p'.values t j = p.values t j) ∧
      ∀ (i k : Nat), p.track[i]? = some (k : Int) → p'.values i c = ((npSort vals)[k]?).getD .nan := by
  obtain ⟨l, -, h1, h2, -, -, -, -, h3⟩ := C48_kth_smallest (K := K) p.track hne hpos p.w
  have hl : p.track = l := List.Perm.eq_of_pairwise (le := (· ≤ ·)) (fun a b _ _ h1 h2 => le_antisymm h1 h2) hs h2 h1.symm
  obtain ⟨p', g1, g2, g3, g4, g5⟩ := h3 p hl rfl c vals hc
  refine ⟨p', g1, g2.trans hl.symm, g3, g4, fun i k hk => ?_⟩
  obtain ⟨k1, k2⟩ := g5 i k (by rw [← hl]; exact hk)
  have hlen : (npSort vals).length = vals.length := List.length_insertionSort _ _
  rcases Nat.lt_or_ge k vals.length with h | h
  · have := npSort_kth vals k (npSort vals)[k] (List.getElem?_eq_getElem (by omega))
    rw [(k1 h).unique this, List.getElem?_eq_getElem (by omega)]
    rfl
  · rw [k2 h, List.getElem?_eq_none (by omega)]
    rfl

/-- Processing one column without exclusion zone. -/
theorem rp_column (p : RP K) (hne : p.track ≠ []) (hpos : ∀ k ∈ p.track, 0 ≤ k) (hs : p.track.Pairwise (· ≤ ·)) (hnd : p.track.Nodup) (he : p.exclusion = 0) {c : Nat} (hc : c < p.w)
    (vals : List (Fl K)) (hv : vals ≠ []) (hi : Fl.ninf ∉ vals) (fuel : Nat) (hf : vals.length ≤ fuel) :
    ∃ p', p.processColumn fuel c [vals] = .ok (some p') ∧ p'.track = p.track ∧ p'.exclusion = 0 ∧ p'.w = p.w ∧ (∀ t j, j ≠ c → p'.values t j = p.values t j) ∧
      ∀ (i k : Nat), p.track[i]? = some (k : Int) →
        p'.values i c = if (((npSort vals)[k]?).getD .nan).isFinite then ((npSort vals)[k]?).getD .nan else p.values i c := by
  obtain ⟨l, -, h1, h2, -, -, -, -, -, h3⟩ := C49_kth_match_partial (K := K) p.track hne hpos hnd 0 p.w
  have hl : p.track = l := List.Perm.eq_of_pairwise (le := (· ≤ ·)) (fun a b _ _ h1 h2 => le_antisymm h1 h2) hs h2 h1.symm
  obtain ⟨is, p', g1, g2, g3, g4, g5, g6, g7⟩ := h3 p hl (by rw [he]; rfl) rfl c vals fuel hc hv hf
  obtain ⟨is', e1, e2, e3, e4, -⟩ := lowestValueIdxs_spec vals hv 0 fuel hf
  rw [g1] at e1
  cases e1
  have hsort := idxs_sorted hi e2 e3 e4
  refine ⟨p', g2, g3.trans hl.symm, g4, g5, g6, fun i k hk => ?_⟩
  obtain ⟨k1, k2⟩ := g7 i k (by rw [← hl]; exact hk)
  rw [hsort]
  rcases Nat.lt_or_ge k is.length with h | h
  · obtain ⟨x, hx⟩ := e2 is[k] (List.getElem_mem h)
    have hk1 := k1 is[k] (List.getElem?_eq_getElem h)
    have : at? vals is[k] = .fin x := by simp [at?, hx]
    rw [List.getElem?_append_left (by simpa using h), List.getElem?_map, List.getElem?_eq_getElem h, Option.map_some, Option.getD_some, this]
    rw [hx] at hk1
    exact (Option.some.inj hk1).symm
  · rw [k2 h, List.getElem?_append_right (by simpa using h)]
    cases e : (npSort (vals.filter fun v => !v.isFinite))[k - (is.map (at? vals)).length]? with
    | none => rfl
    | some v =>
      have := List.mem_filter.mp ((List.perm_insertionSort _ _).mem_iff.mp (List.mem_of_getElem? e))
      rw [Option.getD_some, if_neg]
      simpa using this.2

/-- The `k`-th smallest value is at most `θ` iff more than `k` values are. -/
theorem kth_le (vals : List (Fl K)) (k : Nat) (θ : Fl K) : Fl.leF (((npSort vals)[k]?).getD .nan) θ = true ↔ k < vals.countP fun v => Fl.leF v θ := by
  have hlen : (npSort vals).length = vals.length := List.length_insertionSort _ _
  have hle : vals.countP (fun v => Fl.leF v θ) ≤ vals.length := List.countP_le_length
  rcases eq_or_ne θ .nan with rfl | hθ
  · have h0 : ∀ v : Fl K, Fl.leF v .nan = false := fun v => by simp [Fl.leF]
    simp [h0]
  rcases Nat.lt_or_ge k vals.length with h | h
  · have hk := npSort_kth vals k (npSort vals)[k] (List.getElem?_eq_getElem (by omega))
    rw [List.getElem?_eq_getElem (by omega), Option.getD_some, Fl.leF_iff]
    constructor
    · rintro ⟨hv, -⟩
      refine hk.2.2.trans_le (List.countP_mono_left fun x _ hx => ?_)
      exact (Fl.leF_iff _ _).mpr ⟨(of_decide_eq_true hx).trans hv, hθ⟩
    · intro hlt
      refine ⟨?_, hθ⟩
      by_contra hv
      rw [not_le] at hv
      have : vals.countP (fun v => Fl.leF v θ) ≤ vals.countP fun x => decide (x < (npSort vals)[k]) :=
        List.countP_mono_left fun x _ hx => decide_eq_true ((((Fl.leF_iff _ _).mp hx).1).trans_lt hv)
      have := hk.2.1
      omega
  · rw [List.getElem?_eq_none (by omega), Option.getD_none, Fl.leF_iff]
    constructor
    · rintro ⟨hv, -⟩
      exact absurd (le_antisymm hv (Fl.le_nan _)).symm hθ
    · intro hlt; omega

end NoExclusion

/-- **C114, counts.** `DistancedThresholdCounter(thresholds, 0)` and `ThresholdCounter` with the same thresholds in increasing order, given the same columns without NaN, each
column at most once: nothing is raised and all counts are the same. -/
theorem C114_counts (thr : List (Fl K)) (hne : thr ≠ []) (hthr : Fl.nan ∉ thr) (w : Nat) (argsort : List (Fl K) → List Nat) (has : ∀ l, IsArgsort l (argsort l))
    (cols : List (Nat × List (Fl K))) (hc : ∀ x ∈ cols, x.1 < w) (hd : (cols.map (·.1)).Nodup) (hn : ∀ x ∈ cols, Fl.nan ∉ x.2) :
    ∃ (p p' : DTC K) (q q' : TC K), DTC.initialise thr 0 w = .ok p ∧ cols.foldlM (fun p x => p.processColumn (argsort x.2) x.1 [x.2]) p = .ok p' ∧
      TC.initialise (npSort thr) w = .ok q ∧ cols.foldlM (fun q x => q.processColumn x.1 [x.2]) q = .ok q' ∧
      ∀ t < thr.length, ∀ c < w, p'.counts t c = q'.counts t c := by
  have hlen : (npSort thr).length = thr.length := List.length_insertionSort _ _
  have key : ∀ (p : DTC K) (q : TC K), p.thresholds = npSort thr → p.exclusion = 0 → p.w = w → q.thresholds = npSort thr → q.w = w →
      (∀ t < thr.length, ∀ c < w, p.counts t c = q.counts t c) → (∀ x ∈ cols, ∀ t, p.counts t x.1 = 0) →
      ∃ p' q', cols.foldlM (fun p x => p.processColumn (argsort x.2) x.1 [x.2]) p = .ok p' ∧ cols.foldlM (fun q x => q.processColumn x.1 [x.2]) q = .ok q' ∧
        ∀ t < thr.length, ∀ c < w, p'.counts t c = q'.counts t c := by
    induction cols with
    | nil => exact fun p q _ _ _ _ _ h _ => ⟨p, q, rfl, rfl, h⟩
    | cons x cols ih =>
      intro p q a1 a2 a3 b1 b2 h h0
      rw [List.map_cons, List.nodup_cons] at hd
      have hx := hc x List.mem_cons_self
      obtain ⟨p1, e1, c1, c2, c3, c4, sel, c5⟩ := C47_selection_partial thr hne 0 w p a1 (by rw [a2]; rfl) a3 x.1 hx x.2 (hn x List.mem_cons_self) (argsort x.2) (has _)
      obtain ⟨q1, e2, d1, d2, d3, d4⟩ := NoExclusion.tc_column q (c := x.1) (by omega) x.2
      obtain ⟨p', q', e3, e4, hfin⟩ := ih (fun y hy => hc y (List.mem_cons_of_mem _ hy)) hd.2 (fun y hy => hn y (List.mem_cons_of_mem _ hy)) p1 q1 c1 c2 c3 (d1.trans b1) (d2.trans b2)
        (fun t ht c hcw => by
          by_cases hcx : c = x.1
          · subst hcx
            have hθ : (npSort thr)[t]? = some (npSort thr)[t] := List.getElem?_eq_getElem (by omega)
            have hθn : (npSort thr)[t] ≠ .nan := fun e => hthr (e ▸ (List.perm_insertionSort _ thr).mem_iff.mp (List.getElem_mem _))
            obtain ⟨k1, k2⟩ := c5 t _ hθ hθn
            rw [k1, h0 x List.mem_cons_self t, Nat.zero_add, NoExclusion.selection_length k2 hθn, d4 t _ (by rw [b1]; exact hθ)]
          · rw [c4 t c hcx, d3 t c hcx, h t ht c hcw])
        (fun y hy t => by
          have : y.1 ≠ x.1 := fun e => hd.1 (e ▸ List.mem_map_of_mem hy)
          rw [c4 t _ this, h0 y (List.mem_cons_of_mem _ hy) t])
      refine ⟨p', q', ?_, ?_, hfin⟩
      · rw [List.foldlM_cons, e1]; exact e3
      · rw [List.foldlM_cons, e2]; exact e4
  refine ⟨⟨npSort thr, 0, w, fun _ _ => 0⟩, ?_⟩
  obtain ⟨p', q', e1, e2, e3⟩ := key ⟨npSort thr, 0, w, fun _ _ => 0⟩ ⟨npSort thr, w, fun _ _ => 0⟩ rfl rfl rfl rfl rfl (fun _ _ _ _ => rfl) (fun _ _ _ => rfl)
  refine ⟨p', ⟨npSort thr, w, fun _ _ => 0⟩, q', ?_, e1, ?_, e2, e3⟩
  · unfold DTC.initialise; rw [if_neg (by omega)]; rfl
  · unfold TC.initialise; rw [if_neg (by omega)]; rfl

/-- **C114, radius profiles.** `RadiusProfile(track_indices, 0)` and `RadiusProfile0(track_indices)` with different track indices, given the same columns without -infinity,
each column at most once: nothing is raised; wherever `RadiusProfile0` has a finite number, `RadiusProfile` has the same, elsewhere `RadiusProfile` has NaN. -/
theorem C114_radius (track : List Int) (hne : track ≠ []) (hpos : ∀ k ∈ track, 0 ≤ k) (hnd : track.Nodup) (w fuel : Nat) (cols : List (Nat × List (Fl K)))
    (hc : ∀ x ∈ cols, x.1 < w ∧ x.2 ≠ [] ∧ x.2.length ≤ fuel ∧ Fl.ninf ∉ x.2) (hd : (cols.map (·.1)).Nodup) :
    ∃ (p p' : RP K) (q q' : RP0 K), RP.initialise track (some 0) w = .ok p ∧
      cols.foldlM (fun (p : Option (RP K)) x => match p with
        | none => Except.ok none
        | some p => p.processColumn fuel x.1 [x.2]) (some p) = .ok (some p') ∧
      RP0.initialise track w = .ok q ∧ cols.foldlM (fun q x => q.processColumn x.1 [x.2]) q = .ok q' ∧
      ∀ i < track.length, ∀ c < w, p'.values i c = if (q'.values i c).isFinite then q'.values i c else .nan := by
  obtain ⟨l, h1, h2, h3⟩ := trackIndices_ok track hne hpos
  have lne : l ≠ [] := fun e => hne (by subst e; exact h2.nil_eq.symm)
  have lpos : ∀ k ∈ l, 0 ≤ k := fun k hk => hpos k (h2.mem_iff.mp hk)
  have lnd : l.Nodup := h2.nodup_iff.mpr hnd
  have key : ∀ (p : RP K) (q : RP0 K), p.track = l → p.exclusion = 0 → p.w = w → q.track = l → q.w = w →
      (∀ i < track.length, ∀ c < w, p.values i c = if (q.values i c).isFinite then q.values i c else .nan) → (∀ x ∈ cols, ∀ i, p.values i x.1 = .nan) →
      ∃ p' q', cols.foldlM (fun (p : Option (RP K)) x => match p with
        | none => Except.ok none
        | some p => p.processColumn fuel x.1 [x.2]) (some p) = .ok (some p') ∧ cols.foldlM (fun q x => q.processColumn x.1 [x.2]) q = .ok q' ∧
        ∀ i < track.length, ∀ c < w, p'.values i c = if (q'.values i c).isFinite then q'.values i c else .nan := by
    induction cols with
    | nil => exact fun p q _ _ _ _ _ h _ => ⟨p, q, rfl, rfl, h⟩
    | cons x cols ih =>
      intro p q a1 a2 a3 b1 b2 h h0
      rw [List.map_cons, List.nodup_cons] at hd
      obtain ⟨x1, x2, x3, x4⟩ := hc x List.mem_cons_self
      obtain ⟨p1, e1, c1, c2, c3, c4, c5⟩ := NoExclusion.rp_column p (a1 ▸ lne) (a1 ▸ lpos) (a1 ▸ h3) (a1 ▸ lnd) a2 (c := x.1) (by omega) x.2 x2 x4 fuel x3
      obtain ⟨q1, e2, d1, d2, d3, d4⟩ := NoExclusion.rp0_column q (b1 ▸ lne) (b1 ▸ lpos) (b1 ▸ h3) (c := x.1) (by omega) x.2
      obtain ⟨p', q', e3, e4, hfin⟩ := ih (fun y hy => hc y (List.mem_cons_of_mem _ hy)) hd.2 p1 q1 (c1.trans a1) c2 (c3.trans a3) (d1.trans b1) (d2.trans b2)
        (fun i hi c hcw => by
          by_cases hcx : c = x.1
          · subst hcx
            have hil : i < l.length := by rw [h2.length_eq]; exact hi
            obtain ⟨k, hk⟩ := Int.eq_ofNat_of_zero_le (lpos l[i] (List.getElem_mem hil))
            have hk' : l[i]? = some (k : Int) := by rw [List.getElem?_eq_getElem hil, hk]
            rw [c5 i k (by rw [a1]; exact hk'), d4 i k (by rw [b1]; exact hk'), h0 x List.mem_cons_self i]
          · rw [c4 i c hcx, d3 i c hcx, h i hi c hcw])
        (fun y hy i => by
          have : y.1 ≠ x.1 := fun e => hd.1 (e ▸ List.mem_map_of_mem hy)
          rw [c4 i _ this, h0 y (List.mem_cons_of_mem _ hy) i])
      refine ⟨p', q', ?_, ?_, hfin⟩
      · rw [List.foldlM_cons]; dsimp only; rw [e1]; exact e3
      · rw [List.foldlM_cons, e2]; exact e4
  obtain ⟨p', q', e1, e2, e3⟩ := key ⟨l, 0, w, fun _ _ => .nan⟩ ⟨l, w, fun _ _ => .nan⟩ rfl rfl rfl rfl rfl (fun _ _ _ _ => rfl) (fun _ _ _ => rfl)
  refine ⟨⟨l, 0, w, fun _ _ => .nan⟩, p', ⟨l, w, fun _ _ => .nan⟩, q', ?_, e1, ?_, e2, e3⟩
  · simp only [RP.initialise, h1, bind, Except.bind, pure, Except.pure, Int.toNat_natCast]
    rw [if_neg (by omega), if_neg (by omega)]
  · simp only [RP0.initialise, h1, bind, Except.bind, pure, Except.pure, Int.toNat_natCast]
    rw [if_neg (by omega)]

namespace NoExclusion

/-- In step. -/
structure Dual (w : Nat) (p : RP0 K) (q : TC K) : Prop where
  ne : p.track ≠ []
  pos : ∀ k ∈ p.track, 0 ≤ k
  sorted : p.track.Pairwise (· ≤ ·)
  pw : p.w = w
  qw : q.w = w
  dual : ∀ (i k t : Nat) (θ : Fl K), p.track[i]? = some (k : Int) → q.thresholds[t]? = some θ → ∀ c, Fl.leF (p.values i c) θ = true ↔ k < q.counts t c

theorem dual_column {w : Nat} {p : RP0 K} {q : TC K} (h : Dual w p q) (x : Int) (h0 : 0 ≤ x) (h1 : x < w) (values : List (List (Fl K))) :
    Alike (Dual w) (p.processColumn x values) (q.processColumn x values) := by
  obtain ⟨c, rfl⟩ := Int.eq_ofNat_of_zero_le h0
  have e : ∀ v l, p.processColumn c (v :: l) = p.processColumn c [v] ∧ q.processColumn c (v :: l) = q.processColumn c [v] := fun _ _ => ⟨rfl, rfl⟩
  cases values with
  | nil => exact .err _
  | cons v l =>
    rw [(e v l).1, (e v l).2]
    obtain ⟨p', g1, g2, g3, g4, g5⟩ := rp0_column p h.ne h.pos h.sorted (c := c) (by rw [h.pw]; omega) v
    obtain ⟨q', k1, k2, k3, k4, k5⟩ := tc_column q (c := c) (by rw [h.qw]; omega) v
    rw [g1, k1]
    refine .ok ⟨g2 ▸ h.ne, g2 ▸ h.pos, g2 ▸ h.sorted, g3.trans h.pw, k3.trans h.qw, fun i k t θ hi ht j => ?_⟩
    rw [g2] at hi
    rw [k2] at ht
    by_cases hj : j = c
    · subst hj
      rw [g5 i k hi, k5 t θ ht]
      exact kth_le v k θ
    · rw [g4 i j hj, k4 t j hj]
      exact h.dual i k t θ hi ht j

/-- `initialise`. -/
theorem dual_init (c : (List Int × List (Fl K)) × List Nat) (hne : c.1.1 ≠ []) (hpos : ∀ k ∈ c.1.1, 0 ≤ k) (gops : GenOps G K) (d : Nat) (h : Int) (w : Nat) :
    Alike (fun p q => c.2 = c.2 ∧ Dual w p q) ((RP0.ops gops).initialise (RP0.new c.1.1) d h w) ((TC.ops gops).initialise (TC.new c.1.2) d h w) := by
  obtain ⟨l, h1, h2, h3⟩ := trackIndices_ok c.1.1 hne hpos
  show Alike _ (RP0.initialise c.1.1 w) (TC.initialise c.1.2 w)
  simp only [RP0.initialise, TC.initialise, h1, bind, Except.bind, pure, Except.pure, Int.toNat_natCast]
  rw [if_neg (by omega), if_neg (by omega)]
  refine .ok ⟨trivial, fun e => hne (by simp only at e; subst e; exact h2.nil_eq.symm), fun k hk => hpos k (h2.mem_iff.mp hk), h3, rfl, rfl, fun i k t θ _ _ c => ?_⟩
  simp only [Fl.leF_iff, Nat.not_lt_zero, iff_false, not_and, not_not]
  exact fun h => le_antisymm (Fl.le_nan _) h

theorem inStep (gops : GenOps G K) (h : Int) (w : Nat) :
    InStep h w False True True (fun ids ids' c c' => ids' = ids ∧ Dual w c c') (RP0.ops gops) (TC.ops gops) :=
  InStep.of_same (P := fun _ => Dual w) rfl (fun _ _ _ _ hp x vals h0 h1 _ => dual_column hp x h0 h1 vals) (fun hf => hf.elim)
    (fun _ _ _ _ _ _ _ => .err _) (fun _ _ _ _ _ _ _ => .err _)

end NoExclusion

/-- **C114, counts and radius profiles.** Two calculations of columns that differ in their consumers only, `RadiusProfile0` objects and `ThresholdCounter` objects: any generators,
data and calls (whether they raise or not). Both raise the same exception, or the distance to the match number `k` is at most the threshold exactly where more than `k` distances
are counted. -/
theorem C114_duality (gops : GenOps G K) (shuffle : List Int → List Int) (hsh : ∀ l, ∀ d ∈ shuffle l, d ∈ l)
    (gens : List ((Int → List (Fl K) → Option (List (Fl K)) → Except PyErr G) × Nat)) (cs : List ((List Int × List (Fl K)) × List Nat))
    (hcs : ∀ c ∈ cs, c.1.1 ≠ [] ∧ ∀ k ∈ c.1.1, 0 ≤ k) (needed : List Nat) (m : Int) (series : List (List (Fl K))) (query : Option (List (List (Fl K)))) (buffer : Option Int)
    (hs : m ≤ Anytime.npCols series) (calls : List Anytime.Op) (hk : ∀ o ∈ calls, ∃ lo hi stop, o = .columns lo hi stop) :
    Alike (List.Forall₂ fun x y => y.2 = x.2 ∧ ∀ (i k t : Nat) (θ : Fl K), x.1.track[i]? = some (k : Int) → y.1.thresholds[t]? = some θ →
        ∀ c, Fl.leF (x.1.values i c) θ = true ↔ k < y.1.counts t c)
      (batchAll (RP0.ops gops) shuffle gens (cs.map fun c => (RP0.new c.1.1, c.2)) needed m series query buffer calls)
      (batchAll (TC.ops gops) shuffle gens (cs.map fun c => (TC.new c.1.2, c.2)) needed m series query buffer calls) := by
  obtain ⟨w, hw⟩ := Int.eq_ofNat_of_zero_le (show 0 ≤ Anytime.npCols series - m + 1 by omega)
  refine (batch_inStep shuffle hsh gens _ _ needed m series query buffer calls rfl hw.symm (by omega) (NoExclusion.inStep gops _ w) ?_ (fun o ho => by
    obtain ⟨a, b, c, rfl⟩ := hk o ho; trivial)).mono fun a b hab => hab.imp fun x y ⟨e, h⟩ => ⟨e, h.dual⟩
  rw [List.forall₂_map_left_iff, List.forall₂_map_right_iff]
  refine List.forall₂_same.mpr fun c hc => ?_
  exact NoExclusion.dual_init c (hcs c hc).1 (hcs c hc).2 gops _ _ w

/-- **C114, counts and radius profiles, streams.** The same for `StreamingCalculator`. -/
theorem C114_duality_stream (gops : GenOps G K) (gens : List ((Int → Int → Option Int → Except PyErr G) × Nat)) (cs : List ((List Int × List (Fl K)) × List Nat))
    (hcs : ∀ c ∈ cs, c.1.1 ≠ [] ∧ ∀ k ∈ c.1.1, 0 ≤ k) (needed : List Nat) (m sw : Int) (qw : Option Int) (nDim : Nat) (buffer : Option Int) (hs : m ≤ sw)
    (calls : List (Streaming.Op K)) :
    Alike (List.Forall₂ fun x y => y.2 = x.2 ∧ ∀ (i k t : Nat) (θ : Fl K), x.1.track[i]? = some (k : Int) → y.1.thresholds[t]? = some θ →
        ∀ c, Fl.leF (x.1.values i c) θ = true ↔ k < y.1.counts t c)
      (streamAll (RP0.ops gops) gens (cs.map fun c => (RP0.new c.1.1, c.2)) needed m sw qw nDim buffer calls)
      (streamAll (TC.ops gops) gens (cs.map fun c => (TC.new c.1.2, c.2)) needed m sw qw nDim buffer calls) := by
  obtain ⟨w, hw⟩ := Int.eq_ofNat_of_zero_le (show 0 ≤ sw - m + 1 by omega)
  refine (stream_inStep gens _ _ needed m sw qw nDim buffer calls rfl hw.symm (by omega) (NoExclusion.inStep gops _ w) ?_).mono fun a b hab => hab.imp fun x y ⟨e, h⟩ => ⟨e, h.dual⟩
  rw [List.forall₂_map_left_iff, List.forall₂_map_right_iff]
  exact List.forall₂_same.mpr fun c hc => NoExclusion.dual_init c (hcs c hc).1 (hcs c hc).2 gops _ _ w

/-! ### Examples -/

/-- Thresholds 4 and 2; columns 2 and 0, with equal numbers and infinities. -/
example := C114_counts (K := ℚ) [.fin 4, .fin 2] (by simp) (by simp) 3 exArgsort exArgsort_ok
  [(2, [.fin 1, .fin 4, .pinf, .fin 2]), (0, [.ninf, .fin 3, .fin 3, .fin 9])] (by simp) (by decide) (by simp)

/-- NaN is left out of the columns: `DistancedThresholdCounter` counts it, `ThresholdCounter` does not. -/
example : ((DTC.initialise [(.fin 2 : Fl ℚ)] 0 1 >>= fun p => p.processColumn [0, 1] 0 [[.fin 1, .nan]]).map fun p => p.counts 0 0) = .ok 2 ∧
    ((TC.initialise [(.fin 2 : Fl ℚ)] 1 >>= fun p => p.processColumn 0 [[.fin 1, .nan]]).map fun p => p.counts 0 0) = .ok 1 := by
  decide +kernel

/-- Matches 1, 0 and 5; columns 2 and 0, with NaN and infinity. -/
example := C114_radius (K := ℚ) [1, 0, 5] (by simp) (by simp) (by decide) 3 4 [(2, [.fin 7, .fin 4, .pinf, .nan]), (0, [.fin 3, .nan, .pinf, .nan])] (by simp) (by decide)

/-- One channel 1 5 2 8, `m = 1`, query 4 NaN 7; all columns, the first two of them twice. -/
example := C114_duality (Eucl.genOps zeroMem (fun x : ℚ => x)) List.reverse (fun _ _ h => List.mem_reverse.mp h) [(fun m s q => Eucl.prepare zeroMem m.toNat s q, 0)]
  [(([1, 0, 2], [.fin 2, .nan, .fin 5]), [0]), (([4], []), [0])] (by simp) [0] 1 [[.fin 1, .fin 5, .fin 2, .fin 8]] (some [[.fin 4, .nan, .fin 7]]) none (by decide)
  [.columns (fun _ => false) (some (.int 0)) (.int 2), .columns (fun _ => false) none (.float (.fin 1))] (by simp)

set_option synthInstance.maxSize 1000 in
/-- The numbers of such calculations (the square root being the identity on ℚ here): the distances to the two nearest matches, and how many distances are at most 4 and 25. -/
example :
    ((batchAll (RP0.ops (Eucl.genOps zeroMem (fun x : ℚ => x))) List.reverse [(fun m s q => Eucl.prepare zeroMem m.toNat s q, 0)] [(RP0.new [1, 0], [0])] [0] 1
        [[.fin 1, .fin 5, .fin 2, .fin 8]] (some [[.fin 4, .fin 9, .fin 7]]) none [.columns (fun _ => false) none (.float (.fin 1))]).map fun l =>
      l.map fun c => [0, 1].map fun i => [0, 1, 2, 3].map (c.1.values i)) = .ok [[[.fin 9, .fin 1, .fin 4, .fin 1], [.fin 36, .fin 4, .fin 25, .fin 1]]] ∧
    ((batchAll (TC.ops (Eucl.genOps zeroMem (fun x : ℚ => x))) List.reverse [(fun m s q => Eucl.prepare zeroMem m.toNat s q, 0)] [(TC.new [.fin 4, .fin 25], [0])] [0] 1
        [[.fin 1, .fin 5, .fin 2, .fin 8]] (some [[.fin 4, .fin 9, .fin 7]]) none [.columns (fun _ => false) none (.float (.fin 1))]).map fun l =>
      l.map fun c => [0, 1].map fun t => [0, 1, 2, 3].map (c.1.counts t)) = .ok [[[0, 2, 1, 2], [1, 3, 2, 3]]] := by
  decide +kernel

/-- `series_window` 4, `query_window` 3, `m = 1`: the data come in two parts, the first two columns are calculated in between, the others afterwards; then any calls. -/
example (os : List (Streaming.Op ℚ)) := C114_duality_stream (Eucl.genOps zeroMem (fun x : ℚ => x)) [(Eucl.streaming zeroMem 1, 0)] [(([1, 0], [.fin 4, .fin 25]), [0])] (by simp) [0] 1 4
  (some 3) 1 none (by norm_num) ([.series (.d2 [[.fin 1, .fin 5]] 2), .query (.d2 [[.fin 4, .fin 9, .fin 7]] 3), .columns (fun _ => false) (.int 2), .series (.d2 [[.fin 2, .fin 8]] 2),
    .columns (fun _ => false) (.float (.fin 1))] ++ os)

set_option synthInstance.maxSize 1000 in
/-- Without further calls nothing is raised. -/
example :
    ((streamAll (TC.ops (Eucl.genOps zeroMem (fun x : ℚ => x))) [(Eucl.streaming zeroMem 1, 0)] [(TC.new [.fin 4, .fin 25], [0])] [0] 1 4 (some 3) 1 none
        [.series (.d2 [[.fin 1, .fin 5]] 2), .query (.d2 [[.fin 4, .fin 9, .fin 7]] 3), .columns (fun _ => false) (.int 2), .series (.d2 [[.fin 2, .fin 8]] 2),
          .columns (fun _ => false) (.float (.fin 1))]).map fun l => l.map fun c => [0, 1].map fun t => [0, 1, 2, 3].map (c.1.counts t)) =
      .ok [[[0, 2, 1, 2], [1, 3, 2, 3]]] := by
  decide +kernel

end Verif
