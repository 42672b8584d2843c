import Verif.Props.FloatProfile
import Verif.Props.BatchCounts

/-!
# C88: `ThresholdCounter` in whole batch calculations in floating point
-/

namespace Verif
open Spec
variable {α G K : Type}

theorem leOne_congr [LinearOrder K] {thr : List (Fl K)} {v v' : List (Fl K)} {i t : Nat}
    (h : List.Forall₂ (fun x y => ∀ θ ∈ thr, Fl.leF x θ = Fl.leF y θ) v v') : leOne v'[i]? thr[t]? = leOne v[i]? thr[t]? := by
  cases ht : thr[t]? with
  | none => cases v'[i]? <;> cases v[i]? <;> rfl
  | some θ =>
    have hm := List.mem_of_getElem? ht
    by_cases hi : i < v.length
    · have hi' : i < v'.length := by rw [← h.length_eq]; exact hi
      have := (List.forall₂_iff_get.mp h).2 i hi hi' θ hm
      rw [List.getElem?_eq_getElem hi, List.getElem?_eq_getElem hi']
      simp only [List.get_eq_getElem] at this
      simp only [leOne, this]
    · have hi' : ¬ i < v'.length := by rw [← h.length_eq]; exact hi
      rw [List.getElem?_eq_none (by omega), List.getElem?_eq_none (by omega)]

theorem TC.deliver_same [LinearOrder K] {R : Fl K → Fl K → Prop} {d d' : Delivery K} (p : TC K) (hR : ∀ x y, R x y → ∀ θ ∈ p.thresholds, Fl.leF x θ = Fl.leF y θ)
    (h : NearDel R d d') : p.deliver d' = p.deliver d := by
  rcases h with ⟨k, v, v', rfl, rfl, h⟩ | ⟨k, v, v', rfl, rfl, h⟩
  · have h := h.imp hR
    show p.processDiagonal k [v'] = p.processDiagonal k [v]
    unfold TC.processDiagonal
    simp only [show ∀ x : List (Fl K), pyGet [x] 0 = .ok x from fun _ => rfl, bind, Except.bind, pure, Except.pure, ← h.length_eq, leOne_congr h]
  · have h := h.imp hR
    show p.processColumn k [v'] = p.processColumn k [v]
    have : ∀ t : Nat, (v'.map fun x => leOne (some x) p.thresholds[t]?) = v.map fun x => leOne (some x) p.thresholds[t]? := by
      intro t
      refine List.ext_getElem (by simp [h.length_eq]) fun i h1 h2 => ?_
      simp only [List.length_map] at h1 h2
      have := leOne_congr (i := i) (t := t) h
      rw [List.getElem?_eq_getElem h1, List.getElem?_eq_getElem h2] at this
      simpa using this
    unfold TC.processColumn
    simp only [show ∀ x : List (Fl K), pyGet [x] 0 = .ok x from fun _ => rfl, bind, Except.bind, pure, Except.pure, this]

theorem TC.deliver_thresholds [LinearOrder K] {p p' : TC K} {d : Delivery K} (h : p.deliver d = .ok p') : p'.thresholds = p.thresholds := by
  cases d with
  | diag k v =>
    have h : p.processDiagonal k [v] = .ok p' := h
    unfold TC.processDiagonal at h
    simp only [show ∀ x : List (Fl K), pyGet [x] 0 = .ok x from fun _ => rfl, bind, Except.bind, pure, Except.pure] at h
    split at h
    · cases h; rfl
    · cases h
  | column c v =>
    have h : p.processColumn c [v] = .ok p' := h
    unfold TC.processColumn at h
    simp only [show ∀ x : List (Fl K), pyGet [x] 0 = .ok x from fun _ => rfl, bind, Except.bind, pure, Except.pure] at h
    cases h1 : wrapIdx p.w c with
    | error e => rw [h1] at h; cases h
    | ok c' => rw [h1] at h; cases h; rfl
  | shiftSeries n => cases h
  | shiftQuery n => cases h

/-- Calls with values on the same side of all thresholds lead to the same counts. -/
theorem TC.run_same [LinearOrder K] {R : Fl K → Fl K → Prop} {ds ds' : List (Delivery K)} (h : List.Forall₂ (NearDel R) ds ds') :
    ∀ p : TC K, (∀ x y, R x y → ∀ θ ∈ p.thresholds, Fl.leF x θ = Fl.leF y θ) → p.run ds' = p.run ds := by
  induction h with
  | nil => intro p _; rfl
  | @cons d d' ds ds' h1 _ ih =>
    intro p hp
    show (do let p ← p.deliver d'; p.run ds') = (do let p ← p.deliver d; p.run ds)
    rw [TC.deliver_same p hp h1]
    cases h2 : p.deliver d with
    | error e => rfl
    | ok p1 => exact ih p1 (by rw [TC.deliver_thresholds h2]; exact hp)

/-- **C88, counts.** `ThresholdCounter` consumers of an `AnytimeCalculator` with any channels and generators, computing in floating point, after any sequence
of (partial, possibly interrupted) `calculate_diagonals` and `calculate_columns` calls: if no distance of a calculated pair is within `B.floatErr` of a
threshold, the counts are exactly those of the calculation without rounding (C69). -/
theorem C88_counts (B : BatchCase α) (F : FloatEnv) (b : FloatBounds) (cs : List (List (Fl ℝ) × Nat)) (hB : B.FloatOk F b (cs.map fun c => [c.2]))
    (hgap : ∀ c ∈ cs, ∀ t, .fin t ∈ c.1 → ∀ r < B.h, ∀ j < B.w, B.done r j → B.floatErr F b c.2 < |B.value c.2 r j - t|) :
    ∃ cons', B.floatResult F TC.ops (cs.map fun c => (TC.new c.1, [c.2])) = .ok cons' ∧
      List.Forall₂ (fun c p => p.2 = [c.2] ∧ ∀ (t : Nat) (θ : Fl ℝ), c.1[t]? = some θ → ∀ j < B.w,
        p.1.counts t j = BSt.init.tally B.h B.query.isNone B.order (B.below c.2 θ j) (B.belowMasked c.2 θ j) j B.us 0) cs cons' := by
  refine BatchCase.floatConsumers TC.ops (fun _ => rfl) cs (fun c => (TC.new c.1, [c.2])) hB
    (fun c p => ∀ (t : Nat) (θ : Fl ℝ), c.1[t]? = some θ → ∀ j < B.w,
        p.counts t j = BSt.init.tally B.h B.query.isNone B.order (B.below c.2 θ j) (B.belowMasked c.2 θ j) j B.us 0) fun c hc => ?_
  obtain ⟨thr, id⟩ := c
  have hlt : id < B.kinds.length := hB.id_lt (List.mem_map_of_mem (f := fun c : List (Fl ℝ) × Nat => [c.2]) hc) (by simp)
  obtain ⟨p, p', e1, e2, hns, e3⟩ := hB.toAny.counts_fed thr hlt
  have hthr : p.thresholds = thr := by
    unfold TC.initialise at e1
    split at e1 <;> cases e1
    rfl
  refine ⟨p, e1, fun es hes => ⟨p', ?_, e3⟩⟩
  simp only [BatchCase.events_single] at hes
  obtain ⟨ds, rfl, hds⟩ := nearCall_deliveries _ hes
  have hnear := hB.toAny.near_done hlt hds
  rw [TC.feed_eq, TC.run_same hnear p ?_, e2]
  · rw [hthr]
    rintro x y (⟨rfl, rfl⟩ | ⟨r, j, h1, h2, h3, rfl, z, rfl, h4⟩) θ hθ
    · rfl
    · cases θ with
      | nan => rfl
      | ninf => rfl
      | pinf => rfl
      | fin t =>
        have h5 := hgap (thr, id) hc t hθ r h1 j h2 h3
        simp only at h5
        have h8 : ∀ x : ℝ, Fl.leF (.fin x) (.fin t) = decide (x ≤ t) := fun x => by simp [Fl.leF]
        rw [h8, h8, decide_eq_decide]
        have h6 := abs_le.mp h4
        rcases lt_abs.mp h5 with h7 | h7 <;> constructor <;> intro h <;> linarith
  · intro d hd
    obtain ⟨i, hi⟩ := List.mem_iff_getElem?.mp hd
    obtain ⟨hi', e⟩ := List.getElem?_eq_some_iff.mp hi
    have hl := hds.length_eq
    have := (List.forall₂_iff_get.mp hds).2 i (by omega) hi'
    simp only [List.get_eq_getElem, e] at this
    rcases this with ⟨k, v, v', -, rfl, -⟩ | ⟨k, v, v', -, rfl, -⟩ <;> trivial

end Verif
