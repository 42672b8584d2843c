import Verif.Lemmas.StreamSeen
import Verif.Props.StreamFeed

/-!
# C63: `StreamingCalculator` with `ShiftingMatrixProfileLR`, end to end
-/

namespace Verif
open Spec
variable {α K : Type}

/-- The left, right and merged profile and their indices, for calls that led to `u`: at window column `c`, which is position
`C = c + (points dropped from the series window)` of the series, they tell the nearest subsequence of the query among the rows `r` for which the pair (`r`, `C`)
was calculated (`u.done`), at or before `C` (left) and after `C` (right). -/
structure ShowsProfile [LinearOrder K] (D : List α → List α → Fl K) (m N : Nat) (b : Int) (u : MSt α) (p : ShiftingMP K) : Prop where
  len : p.left.mp.items.length = N + 1 - m ∧ p.left.pi.items.length = N + 1 - m ∧ p.right.mp.items.length = N + 1 - m ∧ p.right.pi.items.length = N + 1 - m
  left : ∀ c < N + 1 - m, ∃ v i, p.left.mp.items[c]? = some v ∧ p.left.pi.items[c]? = some i ∧
    Nearest (fun r => u.done r (c + (u.s.length - N)) ∧ r ≤ c + (u.s.length - N)) (fun r => u.cell D m b r (c + (u.s.length - N))) v i
  right : ∀ c < N + 1 - m, ∃ v i, p.right.mp.items[c]? = some v ∧ p.right.pi.items[c]? = some i ∧
    Nearest (fun r => u.done r (c + (u.s.length - N)) ∧ c + (u.s.length - N) < r) (fun r => u.cell D m b r (c + (u.s.length - N))) v i
  merged : ∀ c < N + 1 - m, ∃ v i, (MP.merged p.left.mp.items p.right.mp.items)[c]? = some v ∧
    (MP.mergedIdx p.left.mp.items p.right.mp.items p.left.pi.items p.right.pi.items)[c]? = some i ∧
    NearestSome (fun r => u.done r (c + (u.s.length - N))) (fun r => u.cell D m b r (c + (u.s.length - N))) v i

theorem Spec.Nearest.congr [LinearOrder K] {P Q : Nat → Prop} {f : Nat → Fl K} {v : Fl K} {i : Int} (h : Nearest P f v i) (he : ∀ r, P r ↔ Q r) :
    Nearest Q f v i := by
  have : P = Q := funext fun r => propext (he r)
  rwa [← this]

/-- The nearer of the nearest on either side. -/
theorem Spec.Nearest.merge [LinearOrder K] {P Q : Nat → Prop} {f : Nat → Fl K} {v w : Fl K} {i j : Int} (h1 : Nearest P f v i) (h2 : Nearest Q f w j)
    (hf : ∀ r, f r ≠ .nan) : NearestSome (fun r => P r ∨ Q r) f (if Fl.ltF v w then v else w) (if Fl.ltF v w then i else j) := by
  have low1 : ∀ r, P r → v ≤ f r := by
    intro r hr
    rcases h1 with ⟨rfl, -, h⟩ | ⟨-, _, -, -, -, h⟩
    · rw [h r hr]
    · exact (h r hr).1
  have low2 : ∀ r, Q r → w ≤ f r := by
    intro r hr
    rcases h2 with ⟨rfl, -, h⟩ | ⟨-, _, -, -, -, h⟩
    · rw [h r hr]
    · exact (h r hr).1
  have hw : w ≠ .nan := by
    rcases h2 with ⟨rfl, -, -⟩ | ⟨-, r, -, -, h, -⟩
    · simp
    · rw [← h]; exact hf r
  by_cases hlt : Fl.ltF v w = true
  · rw [if_pos hlt, if_pos hlt]
    rw [Fl.ltF_iff] at hlt
    rcases h1 with ⟨rfl, -, -⟩ | ⟨h3, r, h4, h5, h6, -⟩
    · exact absurd ((Fl.le_pinf_iff w).mpr hw) (not_le.mpr hlt.1)
    · refine .inr ⟨h3, r, h4, .inl h5, h6, ?_⟩
      rintro r' (hr | hr)
      · exact low1 r' hr
      · exact hlt.1.le.trans (low2 r' hr)
  · rw [if_neg hlt, if_neg hlt]
    rw [Bool.not_eq_true, Fl.ltF_false_iff _ _ hw] at hlt
    rcases h2 with ⟨rfl, rfl, h⟩ | ⟨h3, r, h4, h5, h6, -⟩
    · refine .inl ⟨rfl, rfl, ?_⟩
      rintro r (hr | hr)
      · exact le_antisymm ((Fl.le_pinf_iff _).mpr (hf r)) (hlt.trans (low1 r hr))
      · exact h r hr
    · refine .inr ⟨h3, r, h4, .inr h5, h6, ?_⟩
      rintro r' (hr | hr)
      · exact hlt.trans (low1 r' hr)
      · exact low2 r' hr

/-- The calls of a streaming calculator never are diagonals. -/
theorem allDeliveries_columns (m N : Nat) (M : Option Nat) (b : Int) (D : List α → List α → Fl K) (us : List (MOp α)) (u : MSt α) :
    ∀ d ∈ MSt.allDeliveries m N M b D u us, ¬ d.IsDiag := by
  induction us generalizing u with
  | nil => simp [MSt.allDeliveries]
  | cons x us ih =>
    intro d hd
    rw [MSt.allDeliveries, List.mem_append] at hd
    rcases hd with hd | hd
    · cases x with
      | series v =>
        simp only [MSt.deliveries] at hd
        split at hd
        · simp at hd
        · rcases List.mem_cons.mp hd with rfl | hd
          · exact id
          · split at hd
            · rw [List.mem_singleton] at hd; subst hd; exact id
            · simp at hd
      | query v =>
        simp only [MSt.deliveries] at hd
        split at hd
        · simp at hd
        · rw [List.mem_singleton] at hd; subst hd; exact id
      | columns k =>
        simp only [MSt.deliveries] at hd
        obtain ⟨i, hi, rfl⟩ := List.mem_map.mp hd
        exact id
    · exact ih _ d hd

/-- The row numbers that a profile keeps for diagonals do not matter for columns and shifts. -/
theorem ShiftingMP.run_range [LinearOrder K] (R : Nat) (ds : List (Delivery K)) (hds : ∀ d ∈ ds, ¬ d.IsDiag) (p p' : ShiftingMP K) (he : p.run ds = .ok p')
    (rb : RB Int) (hrb : rb.Good R) (hne : rb.items ≠ []) : ∃ rb', ({ p with range := rb } : ShiftingMP K).run ds = .ok { p' with range := rb' } := by
  induction ds generalizing p rb with
  | nil => cases he; exact ⟨rb, rfl⟩
  | cons d ds ih =>
    have he : (p.deliver d).bind (fun p => p.run ds) = .ok p' := he
    obtain ⟨p1, h1, h2⟩ := bind_ok_iff.mp he
    suffices h : ∃ rb1 : RB Int, ({ p with range := rb } : ShiftingMP K).deliver d = .ok { p1 with range := rb1 } ∧ rb1.Good R ∧ rb1.items ≠ [] by
      obtain ⟨rb1, h3, h4, h5⟩ := h
      obtain ⟨rb', h6⟩ := ih (fun d hd => hds d (by simp [hd])) p1 h2 rb1 h4 h5
      refine ⟨rb', ?_⟩
      show (({ p with range := rb } : ShiftingMP K).deliver d).bind (fun p => p.run ds) = _
      rw [h3]
      exact h6
    cases d with
    | diag k vals => exact (hds (.diag k vals) (by simp) trivial).elim
    | column c vals =>
      refine ⟨rb, ?_, hrb, hne⟩
      show ({ p with range := rb } : ShiftingMP K).processColumn c [vals] = _
      have h1 : p.processColumn c [vals] = .ok p1 := h1
      unfold ShiftingMP.processColumn at h1 ⊢
      obtain ⟨v, e1, h1⟩ := bind_ok_iff.mp h1
      obtain ⟨l, e2, h1⟩ := bind_ok_iff.mp h1
      obtain ⟨r, e3, h1⟩ := bind_ok_iff.mp h1
      cases h1
      have e2' : ({ p with range := rb } : ShiftingMP K).columnLeft c v (max 0 (c + 1 + (p.seriesShift - p.queryShift))) = .ok l := e2
      have e3' : ({ p with range := rb } : ShiftingMP K).columnRight c v (max 0 (c + 1 + (p.seriesShift - p.queryShift))) = .ok r := e3
      simp only [e1, bind, Except.bind, e2', e3', pure, Except.pure]
    | shiftSeries n =>
      refine ⟨rb, ?_, hrb, hne⟩
      show ({ p with range := rb } : ShiftingMP K).shiftSeries n = _
      have h1 : p.shiftSeries n = .ok p1 := h1
      unfold ShiftingMP.shiftSeries at h1 ⊢
      split at h1
      · cases h1; rw [if_pos ‹_›]
      · rw [if_neg ‹_›]
        split at h1
        · cases h1
        · rw [if_neg ‹_›]
          obtain ⟨l, e2, h1⟩ := bind_ok_iff.mp h1
          obtain ⟨r, e3, h1⟩ := bind_ok_iff.mp h1
          cases h1
          simp only [bind, Except.bind, e2, e3, pure, Except.pure]
    | shiftQuery n =>
      have h1 : p.shiftQuery n = .ok p1 := h1
      unfold ShiftingMP.shiftQuery at h1
      split at h1
      · rename_i h0
        cases h1
        refine ⟨rb, ?_, hrb, hne⟩
        show ({ p with range := rb } : ShiftingMP K).shiftQuery n = _
        unfold ShiftingMP.shiftQuery
        rw [if_pos h0]
      · rename_i h0
        obtain ⟨l, e2, h1⟩ := bind_ok_iff.mp h1
        obtain ⟨⟨r, _⟩, e3, h1⟩ := bind_ok_iff.mp h1
        cases h1
        obtain ⟨x, e4⟩ : ∃ x, pyGet rb.items (-1) = .ok x := by
          have hl := List.length_pos_iff.mpr hne
          unfold pyGet
          simp only [show (-1 : Int) < 0 by omega, if_true]
          rw [if_neg (by omega), List.getElem?_eq_getElem (by omega)]
          exact ⟨_, rfl⟩
        obtain ⟨rb', g1, g2, g3, -⟩ := hrb.push (pyRange (x + 1) (x + 1 + n))
        refine ⟨rb', ?_, g2, ?_⟩
        · show ({ p with range := rb } : ShiftingMP K).shiftQuery n = _
          unfold ShiftingMP.shiftQuery
          rw [if_neg h0]
          simp only [bind, Except.bind, e4, g1, pure, Except.pure]
        · rw [g3]
          intro hc
          have := congrArg List.length hc
          have hl := List.length_pos_iff.mpr hne
          have := hrb.pos
          rw [lastN_length, List.length_append] at *
          simp only [List.length_nil] at *
          omega

/-- What a profile consumer holds after the calls, from any state on; `t0` tells the shifts that the object
had when it was initialised. -/
theorem shifting_feed_from [LinearOrder K] {G : Type} (gops : GenOps G K) (memF : Nat → List (Fl K)) (memI : Nat → List Int) (hF : ∀ n, (memF n).length = n) (hI : ∀ n, (memI n).length = n)
    (scale : ℚ) (h1 : 1 ≤ scale) (h2 : scale ≤ 2) (m N : Nat) (M : Option Nat) (hm0 : 0 < m) (hN : m ≤ N) (hM : ∀ M', M = some M' → m ≤ M') (b : Int)
    (D : Nat → List α → List α → Fl K) (id : Nat) (hD : ∀ x y, D id x y ≠ .nan) (us : List (MOp α)) (u0 : MSt α) (t0 : Seen K) (ht0 : t0.cells = [])
    (h0 : SeenFits m N M b (D id) u0 t0) (hall : u0.All m N M (fun u op => u.Valid m M op) us) :
    ∃ p p' : ShiftingMP K, (∀ o : ShiftingMP K, o.seriesShift = t0.ss ∧ o.queryShift = t0.qs → ∀ dims,
        (ShiftingMP.ops memF memI scale gops).initialise o dims ((M.getD N + 1 - m : Nat) : Int) ((N + 1 - m : Nat) : Int) = .ok p) ∧
      feed (ShiftingMP.ops memF memI scale gops) p (MSt.allEvents m N M b D [id] u0 us) = .ok p' ∧
      ShowsProfile (D id) m N b (u0.run m N M us) p' ∧
      p'.seriesShift = ((u0.run m N M us).s.length - N : Nat) ∧ p'.queryShift = ((u0.run m N M us).q.length - M.getD N : Nat) := by
  have hdel := allDeliveries_valid (b := b) hm0 hD us u0 h0.self hM hN hall
  obtain ⟨p0, e1, hp0⟩ := ShiftingMP.initialise_inv (K := K) memF memI hF hI scale h1 h2 (M.getD N + 1 - m) (N + 1 - m) (by omega)
  set R := max (M.getD N + 1 - m) (N + 1 - m) with hR
  set p : ShiftingMP K := { p0 with seriesShift := t0.ss, queryShift := t0.qs } with hpd
  obtain ⟨rb, -, g1, g2⟩ := RB.init_good_scale scale h1 h2 ((List.range R).map fun i : Nat => ((i + t0.qs : Nat) : Int)) (by simp; omega) false (memI _) (hI _)
  rw [List.length_map, List.length_range] at g1
  have hw : ∀ side c, ShiftingMP.Want (Seen.init : Seen K) side c = ShiftingMP.Want t0 side c := by
    intro side c
    unfold ShiftingMP.Want
    rw [ht0]
    rfl
  have hp : ({ p with range := rb } : ShiftingMP K).Inv (M.getD N + 1 - m) (N + 1 - m) t0 := by
    refine ⟨g1, g2, ?_, ?_, rfl, rfl, by simp [ht0]⟩
    · rw [← funext (hw true)]; exact hp0.left
    · rw [← funext (hw false)]; exact hp0.right
  obtain ⟨p1, e2', hp1⟩ := ShiftingMP.run_inv _ (fun d hd => (hdel d hd).1) _ _ hp
  rw [run_of_clean _ fun d hd => (hdel d hd).2] at hp1
  obtain ⟨rb', e2⟩ := ShiftingMP.run_range R _ (allDeliveries_columns m N M b (D id) us u0) _ _ e2' p.range hp0.rangeGood (by
    show p0.range.items ≠ []
    rw [hp0.range]; simp; omega)
  set p' : ShiftingMP K := { p1 with range := rb' } with hpd'
  have hp' : p'.left = p1.left ∧ p'.right = p1.right := ⟨rfl, rfl⟩
  have hfit := SeenFits.run hm0 us u0 t0 h0 hall
  have hfeed : ∀ (ds : List (Delivery K)) (p : ShiftingMP K), feed (ShiftingMP.ops memF memI scale gops) p (ds.map Delivery.event) = p.run ds := by
    intro ds
    induction ds with
    | nil => intro p; rfl
    | cons d ds ih =>
      intro p
      have ed : d.event.apply (ShiftingMP.ops memF memI scale gops) p = p.deliver d := by cases d <;> rfl
      show (do feed _ (← d.event.apply (ShiftingMP.ops memF memI scale gops) p) (ds.map Delivery.event)) = (do let p ← p.deliver d; p.run ds)
      rw [ed]
      cases p.deliver d with
      | error e => rfl
      | ok p1 => exact ih p1
  set u := u0.run m N M us with hu
  set t := t0.run (MSt.allDeliveries m N M b (D id) u0 us) with ht
  have hL := fun c hc => hp1.left.holds.get (c := c) hc
  have hR := fun c hc => hp1.right.holds.get (c := c) hc
  have nL : ∀ c, Nearest (fun r => u.done r (c + (u.s.length - N)) ∧ r ≤ c + (u.s.length - N)) (fun r => u.cell (D id) m b r (c + (u.s.length - N)))
      (ShiftingMP.Want t true c).1 (ShiftingMP.Want t true c).2 := fun c => (hfit.nearest hD true c _ _ (best_isBest _)).congr fun r => by
    simp only [decide_eq_true_eq]
  have nR : ∀ c, Nearest (fun r => u.done r (c + (u.s.length - N)) ∧ c + (u.s.length - N) < r) (fun r => u.cell (D id) m b r (c + (u.s.length - N)))
      (ShiftingMP.Want t false c).1 (ShiftingMP.Want t false c).2 := fun c => (hfit.nearest hD false c _ _ (best_isBest _)).congr fun r => by
    simp only [decide_eq_false_iff_not, not_le]
  have e3 : ∀ o : ShiftingMP K, o.seriesShift = t0.ss ∧ o.queryShift = t0.qs → ∀ dims,
      (ShiftingMP.ops memF memI scale gops).initialise o dims ((M.getD N + 1 - m : Nat) : Int) ((N + 1 - m : Nat) : Int) = .ok p := by
    intro o ho dims
    show (ShiftingMP.initialise memF memI scale _ _).map _ = _
    rw [e1]
    show Except.ok { p0 with seriesShift := o.seriesShift, queryShift := o.queryShift } = Except.ok p
    rw [ho.1, ho.2]
  refine ⟨p, p', e3, by rw [allEvents_single, hfeed]; exact e2, ⟨⟨hp1.left.holds.len.1, hp1.left.holds.len.2, hp1.right.holds.len.1, hp1.right.holds.len.2⟩,
    fun c hc => ⟨_, _, (hL c hc).1, (hL c hc).2, nL c⟩, fun c hc => ⟨_, _, (hR c hc).1, (hR c hc).2, nR c⟩, fun c hc => ?_⟩,
    by rw [← hfit.ss]; exact hp1.ss, by rw [← hfit.qs]; exact hp1.qs⟩
  obtain ⟨g1, g2⟩ := MP.merged_get _ _ _ _ c _ _ _ _ (hL c hc).1 (hR c hc).1 (hL c hc).2 (hR c hc).2
  refine ⟨_, _, g1, g2, ?_⟩
  have hmerge := (nL c).merge (nR c) (fun r => by
    unfold MSt.cell
    split
    · simp
    · exact hD _ _)
  have : (fun r => u.done r (c + (u.s.length - N))) = fun r => (u.done r (c + (u.s.length - N)) ∧ r ≤ c + (u.s.length - N)) ∨
      (u.done r (c + (u.s.length - N)) ∧ c + (u.s.length - N) < r) := by
    funext r
    refine propext ⟨fun h => (le_or_gt r (c + (u.s.length - N))).imp (⟨h, ·⟩) (⟨h, ·⟩), ?_⟩
    rintro (h | h) <;> exact h.1
  rw [this]
  exact hmerge

/-- What a profile consumer holds after the calls. -/
theorem shifting_feed [LinearOrder K] {G : Type} (gops : GenOps G K) (memF : Nat → List (Fl K)) (memI : Nat → List Int) (hF : ∀ n, (memF n).length = n) (hI : ∀ n, (memI n).length = n)
    (scale : ℚ) (h1 : 1 ≤ scale) (h2 : scale ≤ 2) (m N : Nat) (M : Option Nat) (hm0 : 0 < m) (hN : m ≤ N) (hM : ∀ M', M = some M' → m ≤ M') (b : Int)
    (D : Nat → List α → List α → Fl K) (id : Nat) (hD : ∀ x y, D id x y ≠ .nan) (us : List (MOp α)) (hall : MSt.init.All m N M (fun u op => u.Valid m M op) us) :
    ∃ p p' : ShiftingMP K, (∀ o : ShiftingMP K, o.seriesShift = 0 ∧ o.queryShift = 0 → ∀ dims,
        (ShiftingMP.ops memF memI scale gops).initialise o dims ((M.getD N + 1 - m : Nat) : Int) ((N + 1 - m : Nat) : Int) = .ok p) ∧
      feed (ShiftingMP.ops memF memI scale gops) p (MSt.allEvents m N M b D [id] MSt.init us) = .ok p' ∧
      ShowsProfile (D id) m N b (MSt.init.run m N M us) p' := by
  obtain ⟨p, p', e1, e2, e3, -⟩ := shifting_feed_from gops memF memI hF hI scale h1 h2 m N M hm0 hN hM b D id hD us MSt.init Seen.init rfl (SeenFits.init m N M b (D id)) hall
  exact ⟨p, p', e1, e2, e3⟩

theorem streamDist_ne_nan (π : Nat → α → ℝ) (m : Nat) (kinds : List (GenKind × Nat)) (id : Nat) (h : id < kinds.length) (x y : List α) :
    streamDist π m kinds id x y ≠ .nan := by
  unfold streamDist
  rw [List.getElem?_eq_getElem h]
  simp only
  cases kinds[id].1 <;> simp [GenKind.dist]

/-- **C63.** A `StreamingCalculator` with any channels and generators and any number of `ShiftingMatrixProfileLR` consumers, each of one generator
(`consumers`: the objects, new or at least never shifted, and the generator ids; see `C63_reused_wrong`), after any sequence of `append_series`, `append_query` and (possibly
interrupted) `calculate_columns` calls: no call raises, and every consumer shows the nearest neighbours among all pairs calculated so far, also
those whose row has left the query window. Partial: for Euclidean generators whenever columns are calculated no two different subsequences in the
windows may be at squared distance below `1e-15` (`C63_euclidean_wrong`). -/
theorem C63_streaming_profile_partial (memE : Nat → List (Fl ℝ)) (hmemE : ∀ n, (memE n).length = n) (memZ : ZN.Mem) (hmemZ : memZ.Ok)
    (memF : Nat → List (Fl ℝ)) (memI : Nat → List Int) (hF : ∀ n, (memF n).length = n) (hI : ∀ n, (memI n).length = n)
    (scale : ℚ) (h1 : 1 ≤ scale) (h2 : scale ≤ 2) (π : Nat → α → ℝ)
    (m N : Nat) (M : Option Nat) (nDim : Nat) (buffer : Option Int) (kinds : List (GenKind × Nat)) (consumers : List (ShiftingMP ℝ × Nat))
    (hfresh : ∀ c ∈ consumers, c.1.seriesShift = 0 ∧ c.1.queryShift = 0) (needed : List Nat) (ha : StreamArgs m N M nDim buffer kinds (consumers.map fun c => [c.2]) needed)
    (us : List (MOp α)) (os : List (Streaming.Op ℝ)) (hc : AreCalls nDim π m N M MSt.init us os)
    (hall : MSt.init.All m N M (fun u op => u.Valid m M op ∧ ∀ k, op = .columns k → ∀ g ∈ kinds,
        g.1.Good m (lastN N (u.s.map (π g.2))) (lastN (M.getD N) (u.q.map (π g.2)))) us) :
    ∃ ps : List (ShiftingMP ℝ),
      streamAll (ShiftingMP.ops memF memI scale (GenKind.ops memE memZ)) (kinds.map fun k => (k.1.streaming memE memZ, k.2))
        (consumers.map fun c => (c.1, [c.2])) needed m N (M.map fun M : Nat => (M : Int)) nDim buffer os =
          .ok (List.zipWith (fun p c => (p, [c.2])) ps consumers) ∧
      List.Forall₂ (fun p c => ShowsProfile (streamDist π m kinds c.2) m N (bufferOf m M buffer) (MSt.init.run m N M us) p) ps consumers := by
  have hv : MSt.init.All m N M (fun u op => u.Valid m M op) us := by
    clear hc
    revert hall
    generalize (MSt.init : MSt α) = u
    induction us generalizing u with
    | nil => intro _; trivial
    | cons x us ih => intro h; exact ⟨h.1.1, ih _ h.2⟩
  have hid : ∀ c ∈ consumers, c.2 < kinds.length := fun c hc => ha.ids [c.2] (List.mem_map.mpr ⟨c, hc, rfl⟩) c.2 (by simp)
  have key : ∀ (i : Nat) (c : ShiftingMP ℝ × Nat), consumers[i]? = some c → ∃ pp : ShiftingMP ℝ × ShiftingMP ℝ,
      (ShiftingMP.ops memF memI scale (GenKind.ops memE memZ)).initialise c.1 1 ((M.getD N + 1 - m : Nat) : Int) ((N + 1 - m : Nat) : Int) = .ok pp.1 ∧
      feed (ShiftingMP.ops memF memI scale (GenKind.ops memE memZ)) pp.1
        (MSt.allEvents m N M (bufferOf m M buffer) (streamDist π m kinds) [c.2] MSt.init us) = .ok pp.2 ∧
      ShowsProfile (streamDist π m kinds c.2) m N (bufferOf m M buffer) (MSt.init.run m N M us) pp.2 := by
    intro i c h
    obtain ⟨p, p', a1, a2, a3⟩ := shifting_feed (GenKind.ops memE memZ) memF memI hF hI scale h1 h2 m N M ha.pos ha.series ha.query
      (bufferOf m M buffer) (streamDist π m kinds) c.2 (streamDist_ne_nan π m kinds c.2 (hid c (List.mem_of_getElem? h))) us hv
    exact ⟨(p, p'), a1 c.1 (hfresh c (List.mem_of_getElem? h)) 1, a2, a3⟩
  obtain ⟨l, l1, l2⟩ := exists_list (fun _ (c : ShiftingMP ℝ × Nat) (pp : ShiftingMP ℝ × ShiftingMP ℝ) => _) consumers key
  refine ⟨l.map Prod.snd, ?_, ?_⟩
  · refine C62_stream_feed_partial memE hmemE memZ hmemZ _ rfl π m N M nDim buffer kinds _
      (List.zipWith (fun p c => (p, [c.2])) (l.map Prod.fst) consumers) _ needed (by simpa [List.map_map, Function.comp_def] using ha) ?_ us os hc hall ?_
    · rw [forall₂_iff_getElem?]
      refine ⟨by simp [l1], fun i x y hx hy => ?_⟩
      rw [List.getElem?_map] at hx
      obtain ⟨c, h3, rfl⟩ := Option.map_eq_some_iff.mp hx
      have hi : i < l.length := by rw [l1]; exact (List.getElem?_eq_some_iff.mp h3).1
      have h4 := List.getElem?_eq_getElem hi
      rw [List.getElem?_zipWith, List.getElem?_map, h3, h4] at hy
      cases hy
      exact ⟨rfl, (l2 i c _ h3 h4).1⟩
    · unfold AllFed
      rw [forall₂_iff_getElem?]
      refine ⟨by simp, fun i x y hx hy => ?_⟩
      rw [List.getElem?_zipWith] at hx hy
      cases h3 : consumers[i]? with
      | none => rw [h3] at hx; simp at hx
      | some c =>
        have hi : i < l.length := by rw [l1]; exact (List.getElem?_eq_some_iff.mp h3).1
        have h4 := List.getElem?_eq_getElem hi
        rw [List.getElem?_map, h3, h4] at hx hy
        cases hx; cases hy
        exact ⟨rfl, (l2 i c _ h3 h4).2.1⟩
  · rw [forall₂_iff_getElem?]
    refine ⟨by simp [l1], fun i x c hx h3 => ?_⟩
    rw [List.getElem?_map] at hx
    obtain ⟨pp, h4, rfl⟩ := Option.map_eq_some_iff.mp hx
    exact (l2 i c pp h3 h4).2.2

/-- **C63, z-normalised Euclidean distance.** No restriction on the data. -/
theorem C63_streaming_profile_znorm (memE : Nat → List (Fl ℝ)) (hmemE : ∀ n, (memE n).length = n) (memZ : ZN.Mem) (hmemZ : memZ.Ok)
    (memF : Nat → List (Fl ℝ)) (memI : Nat → List Int) (hF : ∀ n, (memF n).length = n) (hI : ∀ n, (memI n).length = n)
    (scale : ℚ) (h1 : 1 ≤ scale) (h2 : scale ≤ 2) (π : Nat → α → ℝ)
    (m N : Nat) (M : Option Nat) (nDim : Nat) (buffer : Option Int) (kinds : List (GenKind × Nat)) (hz : ∀ k ∈ kinds, ∃ noise scale, k.1 = .znorm noise scale)
    (consumers : List (ShiftingMP ℝ × Nat))
    (hfresh : ∀ c ∈ consumers, c.1.seriesShift = 0 ∧ c.1.queryShift = 0) (needed : List Nat) (ha : StreamArgs m N M nDim buffer kinds (consumers.map fun c => [c.2]) needed)
    (us : List (MOp α)) (os : List (Streaming.Op ℝ)) (hc : AreCalls nDim π m N M MSt.init us os)
    (hall : MSt.init.All m N M (fun u op => u.Valid m M op) us) :
    ∃ ps : List (ShiftingMP ℝ),
      streamAll (ShiftingMP.ops memF memI scale (GenKind.ops memE memZ)) (kinds.map fun k => (k.1.streaming memE memZ, k.2))
        (consumers.map fun c => (c.1, [c.2])) needed m N (M.map fun M : Nat => (M : Int)) nDim buffer os =
          .ok (List.zipWith (fun p c => (p, [c.2])) ps consumers) ∧
      List.Forall₂ (fun p c => ShowsProfile (streamDist π m kinds c.2) m N (bufferOf m M buffer) (MSt.init.run m N M us) p) ps consumers :=
  C63_streaming_profile_partial memE hmemE memZ hmemZ memF memI hF hI scale h1 h2 π m N M nDim buffer kinds consumers hfresh needed ha us os hc
    (allGood_znorm π m N M kinds hz us _ hall)

/-- A `ShiftingMatrixProfileLR` object before `initialise`: only the shifts matter. -/
def exProfile : ShiftingMP ℚ :=
  let f : RB (Fl ℚ) := ⟨[], [.fin 9], 1, 0, 1, .window 0 1⟩
  let i : RB Int := ⟨[], [5], 1, 0, 1, .window 0 1⟩
  ⟨i, ⟨f, i⟩, ⟨f, i⟩, 0, 0⟩

/-- Squared Euclidean distances of exact data in a profile. -/
def exProfileRun (calls : List (Streaming.Op ℚ)) (m N : Int) (M : Option Int) (buffer : Option Int) : Except PyErr (List (ShiftingMP ℚ)) :=
  (streamAll (ShiftingMP.ops (fun n => List.replicate n .nan) (fun n => List.replicate n 77) 2 (Eucl.genOps zeroMem (fun x => x)))
    [(Eucl.streaming zeroMem 2, 0)] [(exProfile, [0])] [0] m N M 1 buffer calls).map fun l => l.map Prod.fst

/-- The calls of `exStreamCalls` (series 1 5 2 8 3 9 2, query 4 4 7 0, windows of 4 and 3, `m = 2`): position 5 of the series, window column 2, was
calculated after the query had moved, so the first row is not among the candidates. -/
example : (exProfileRun exStreamCalls 2 4 (some 3) none).map (fun l => l.map fun p => [p.left.mp.items, p.right.mp.items]) =
    .ok [[[.fin 17, .fin 5, .fin 8], [.pinf, .pinf, .pinf]]] := by decide +kernel
example : (exProfileRun exStreamCalls 2 4 (some 3) none).map (fun l => l.map fun p => [p.left.pi.items, p.right.pi.items]) =
    .ok [[[0, 1, 2], [-1, -1, -1]]] := by decide +kernel

/-- The Euclidean part of C63 does not hold for every input: the subsequences at position 0 are at squared distance `4e-16`; the pair (1, 1),
at distance 0, is delivered as NaN, and the profile says that position 1 has no neighbour. -/
theorem C63_euclidean_wrong : (exProfileRun [.series (.d2 [[.fin (1 / 50000000), .fin 5]] 2), .query (.d2 [[.fin 0, .fin 5]] 2),
      .columns (fun _ => false) (.int 2)] 1 2 (some 2) none).map (fun l => l.map fun p => (p.left.mp.items, p.left.pi.items)) =
    .ok [([.fin 0, .pinf], [0, -1])] := by
  decide +kernel

/-- A `ShiftingMatrixProfileLR` that was shifted in an earlier calculation does not work in a new one: `initialise` keeps the old shifts. Series 1 5 2, query
4 4 7, `m = 1`: with an object that was shifted by 1 and 2 before the row numbers are 2 too high, and row 0, the neighbour of position 0 on the left side, is
shown on the right side instead. -/
theorem C63_reused_wrong :
    ([(0, 0), (1, 2)] : List (Int × Int)).map (fun x =>
      (streamAll (ShiftingMP.ops (fun n => List.replicate n .nan) (fun n => List.replicate n 77) 2 (Eucl.genOps zeroMem (fun x : ℚ => x)))
        [(Eucl.streaming zeroMem 2, 0)] [({ exProfile with seriesShift := x.1, queryShift := x.2 }, [0])] [0] 1 3 (some 3) 1 none
        [.series (.d2 [[.fin 1, .fin 5, .fin 2]] 3), .query (.d2 [[.fin 4, .fin 4, .fin 7]] 3), .columns (fun _ => false) (.int 3)]).map fun l =>
          l.map fun c => [c.1.left.pi.items, c.1.right.pi.items]) =
      [.ok [[[0, 0, 0], [1, 2, -1]]], .ok [[[-1, 2, 2], [2, 3, 4]]]] := by
  decide +kernel

/-- New objects. -/
example : ∀ c ∈ [(exProfile, 2), (exProfile, 0)], c.1.seriesShift = 0 ∧ c.1.queryShift = 0 := by decide

/-- Hypotheses of `C63_streaming_profile_partial`, with the calls of `exFrames`. -/
example (p p' : ShiftingMP ℝ) : StreamArgs 2 4 (some 3) 2 none exKinds ([(p, 2), (p', 0)].map fun c => [c.2]) [0, 2] := by
  refine ⟨by decide, by decide, by simp, by simp, ?_, ?_, ?_, by decide, ?_⟩
  · simp [exKinds, GenKind.ScaleOk]; norm_num
  · simp [exKinds]
  · simp [exKinds]
  · intro id; simp; omega

/-- A self-join whose window overflows: hypotheses of `C63_streaming_profile_znorm`. -/
example : AreCalls 1 (fun _ (x : ℤ) => (x : ℝ)) 2 4 none MSt.init [.series [1, 5, 2, 8, 3], .columns 3, .series [9], .columns 3]
    [.series (.d2 [[.fin 1, .fin 5, .fin 2, .fin 8, .fin 3]] 5), .columns (fun _ => false) (.int 3), .series (.d1 [.fin 9]),
     .columns (fun _ => false) (.float (.fin 1))] ∧
    MSt.init.All 2 4 none (fun u op => u.Valid 2 none op) [.series [(1 : ℤ), 5, 2, 8, 3], .columns 3, .series [9], .columns 3] := by
  refine ⟨⟨.inl ?_, ⟨3, .inl rfl, by simp, .inl rfl⟩, .inr ⟨9, rfl, ?_⟩, ⟨3, .inr ⟨1, rfl, by norm_num, by norm_num, by norm_num⟩, by simp, .inl rfl⟩,
    trivial⟩, ?_⟩
  · simp
  · simp
  · simp [MSt.All, MSt.step, MSt.init, MSt.Valid]

end Verif
