import Verif.Lemmas.FloatStream
import Verif.Props.StreamProfile
import Verif.Props.NearMatrix

/-!
# C89: streaming calculations in floating point
-/

namespace Verif
open Spec
variable {α G K : Type}

/-- **C89, calls.** A `StreamingCalculator` with any channels and generators, computing in floating point, after any sequence of `append_series`,
`append_query` and (possibly interrupted) `calculate_columns` calls: no call raises, and every consumer receives the calls of the exact calculation, with
values that differ from the exact ones by at most `S.floatErr`, however many points were appended before. -/
theorem C89_calls (S : StreamCase α) (F : FloatEnv) (b : FloatBounds) (idss : List (List Nat)) (hS : S.FloatOk F b idss) :
    ∃ cons', S.floatResult F recorder (idss.map fun ids => ([], ids)) = .ok cons' ∧
      List.Forall₂ (fun ids c => c.2 = ids ∧ List.Forall₂ (NearEvent (fun id => CloseVal (S.floatErr F b id)) ids) (S.events ids) c.1) idss cons' := by
  refine StreamCase.floatConsumers recorder (fun _ => rfl) idss (fun ids => (([] : List (CEvent ℝ)), ids)) (by simpa using hS)
    (fun ids p => List.Forall₂ (NearEvent (fun id => CloseVal (S.floatErr F b id)) ids) (S.events ids) p) fun ids _ => ⟨[], rfl, fun es hes => ⟨es, ?_, hes⟩⟩
  rw [recorder_feed, List.nil_append]

/-! ### Matrices -/

/-- What a `DistanceMatrix` shows of the windows at the end: `+inf` in the trivial match band, a number at most `ε` away from the distance outside for pairs
that were calculated, NaN for the others. -/
def StreamCase.ShowsWithin (S : StreamCase α) (ε : ℝ) (id : Nat) (p : DM ℝ) : Prop :=
  p.h = S.h ∧ p.w = S.w ∧ ∀ r < S.h, ∀ c < S.w,
    (S.last.done (r + (S.last.q.length - S.M.getD S.N)) (c + (S.last.s.length - S.N)) →
      r + S.m ≤ (lastN (S.M.getD S.N) S.last.q).length ∧ c + S.m ≤ (lastN S.N S.last.s).length ∧
      ((r : Int) - c ≤ S.b ∧ (c : Int) - r ≤ S.b → p.m r c = .pinf) ∧
      (¬ ((r : Int) - c ≤ S.b ∧ (c : Int) - r ≤ S.b) → ∃ y, p.m r c = .fin y ∧ |y -
        streamValue S.π S.m S.kinds id (((lastN S.N S.last.s).drop c).take S.m) (((lastN (S.M.getD S.N) S.last.q).drop r).take S.m)| ≤ ε)) ∧
    (¬ S.last.done (r + (S.last.q.length - S.M.getD S.N)) (c + (S.last.s.length - S.N)) → p.m r c = .nan)

theorem closeVal_other {ε : ℝ} {x y : Fl ℝ} (h : CloseVal ε x y) (hx : ∀ z, x ≠ .fin z) : y = x := by
  rcases h with ⟨rfl, rfl⟩ | ⟨a, b, rfl, -⟩
  · rfl
  · exact absurd rfl (hx a)

/-- **C89, matrices.** `DistanceMatrix` consumers in such a calculation. -/
theorem C89_matrix (S : StreamCase α) (F : FloatEnv) (b : FloatBounds) (ids : List Nat) (hS : S.FloatOk F b (ids.map fun id => [id])) :
    ∃ cons', S.floatResult F DM.ops (ids.map fun id => (DM.new, [id])) = .ok cons' ∧
      List.Forall₂ (fun id c => c.2 = [id] ∧ S.ShowsWithin (S.floatErr F b id) id c.1) ids cons' := by
  refine StreamCase.floatConsumers DM.ops (fun _ => rfl) ids (fun id => ((DM.new : DM ℝ), [id])) hS
    (fun id p => S.ShowsWithin (S.floatErr F b id) id p) fun id hid => ?_
  have hlt := hS.id_lt (List.mem_map_of_mem hid) (by simp : id ∈ [id])
  obtain ⟨p, q, e1, e2, e3, e3', e4⟩ := C44_distance_matrix S.h S.w (S.dels id) (fun d hd => (hS.dels_valid hlt d hd).1)
  refine ⟨p, e1, fun es hes => ?_⟩
  obtain ⟨q', e5, e6⟩ := DM.feed_near (R := CloseVal (S.floatErr F b id)) (F.ops S.memE S.memZ) (nearEvent_single hes)
    (p := p) (p' := p) ⟨rfl, rfl, fun _ _ => .inl rfl⟩ (by rw [StreamCase.events_single, DM.feed_eq]; exact e2)
  refine ⟨q', e5, e6.h_eq.trans e3, e6.w_eq.trans e3', fun r hr c hc => ?_⟩
  have hfit := hS.fits id
  have hl := e4 r hr c hc
  rw [hfit.ss, hfit.qs] at hl
  have e7 := e6.entries r c
  refine ⟨fun h => ?_, fun h => ?_⟩
  · obtain ⟨d0, d1, d2⟩ := hfit.done _ _ h
    have hval : q.m r c = S.last.cell (streamDist S.π S.m S.kinds id) S.m S.b (r + (S.last.q.length - S.M.getD S.N)) (c + (S.last.s.length - S.N)) := by
      rcases hl with ⟨pre, post, h4, -⟩ | ⟨-, hno⟩
      · obtain ⟨r', c', -, hx⟩ := (hfit.mem ⟨((r + (S.last.q.length - S.M.getD S.N) : Nat) : Int), ((c + (S.last.s.length - S.N) : Nat) : Int), q.m r c⟩).mp (by rw [h4]; simp)
        simp only [Cell.mk.injEq, Int.natCast_inj] at hx
        rw [hx.2.2, hx.1, hx.2.1]
      · exact absurd ⟨rfl, rfl⟩ (hno _ ((hfit.mem _).mpr ⟨_, _, h, rfl⟩))
    have hcond : (((r + (S.last.q.length - S.M.getD S.N) : Nat) : Int) - ((c + (S.last.s.length - S.N) : Nat) : Int) ≤ S.b ∧
        ((c + (S.last.s.length - S.N) : Nat) : Int) - ((r + (S.last.q.length - S.M.getD S.N) : Nat) : Int) ≤ S.b) ↔ ((r : Int) - c ≤ S.b ∧ (c : Int) - r ≤ S.b) := by
      cases hM : S.M with
      | none =>
        rw [hfit.self hM]
        simp only [Option.getD_none]
        omega
      | some M' =>
        have : S.b = -1 := by unfold StreamCase.b bufferOf; rw [hM]; rfl
        rw [this]
        omega
    unfold MSt.cell at hval
    rw [if_congr hcond rfl rfl, streamDist_value _ _ _ _ hlt] at hval
    rw [lastN_length, lastN_length]
    refine ⟨by omega, by omega, fun hb => ?_, fun hb => ?_⟩
    · rw [if_pos hb] at hval
      rw [hval] at e7
      exact e7.elim (·) (fun e => closeVal_other e (by simp))
    · rw [if_neg hb] at hval
      have w1 := win_lastN S.m S.N S.last.s c
      have w2 := win_lastN S.m (S.M.getD S.N) S.last.q r
      unfold win at w1 w2
      rw [w1, w2]
      rw [hval] at e7
      rcases e7 with e7 | ⟨h1, -⟩ | ⟨x, y, h1, h2, -, h3⟩
      · exact ⟨_, e7, by simpa using hS.floatErr_nonneg id⟩
      · cases h1
      · cases h1
        exact ⟨y, h2, h3⟩
  · have hval : q.m r c = .nan := by
      rcases hl with ⟨pre, post, h4, -⟩ | ⟨hn, -⟩
      · exfalso
        obtain ⟨r', c', hd, hx⟩ := (hfit.mem ⟨((r + (S.last.q.length - S.M.getD S.N) : Nat) : Int), ((c + (S.last.s.length - S.N) : Nat) : Int), q.m r c⟩).mp (by rw [h4]; simp)
        simp only [Cell.mk.injEq, Int.natCast_inj] at hx
        rw [hx.1, hx.2.1] at h
        exact h hd
      · exact hn
    rw [hval] at e7
    exact e7.elim (·) (fun e => closeVal_other e (by simp))

/-! ### Profiles -/

/-- The same delivery, or the same column with values that are equal or related. -/
def NearColumn (R : Fl K → Fl K → Prop) (d d' : Delivery K) : Prop :=
  d' = d ∨ ∃ c v v', d = .column c v ∧ d' = .column c v' ∧ List.Forall₂ (fun a b => b = a ∨ R a b) v v'

theorem nearEvent_deliveries {Rel : Nat → Fl K → Fl K → Prop} {id : Nat} (ds : List (Delivery K)) : ∀ {es : List (CEvent K)},
    List.Forall₂ (NearEvent Rel [id]) (ds.map Delivery.event) es → ∃ ds', es = ds'.map Delivery.event ∧ List.Forall₂ (NearColumn (Rel id)) ds ds' := by
  induction ds with
  | nil => intro es h; cases h; exact ⟨[], rfl, .nil⟩
  | cons d ds ih =>
    intro es h
    obtain ⟨e', es', h1, h2, rfl⟩ := List.forall₂_cons_left_iff.mp h
    obtain ⟨ds', rfl, h3⟩ := ih h2
    have : ∃ d', e' = Delivery.event d' ∧ NearColumn (Rel id) d d' := by
      rcases h1 with rfl | ⟨c, F, F', e1, e2, e3⟩
      · exact ⟨d, rfl, .inl rfl⟩
      · cases d with
        | diag k v => simp [Delivery.event] at e1
        | column k v =>
          simp only [Delivery.event, CEvent.column.injEq, List.map_cons, List.map_nil, List.cons.injEq, and_true] at e1
          obtain ⟨rfl, rfl⟩ := e1
          exact ⟨.column k (F' id), by rw [e2]; rfl, .inr ⟨k, _, _, rfl, rfl, e3 id (by simp)⟩⟩
        | shiftSeries n => simp [Delivery.event] at e1
        | shiftQuery n => simp [Delivery.event] at e1
    obtain ⟨d', rfl, h4⟩ := this
    exact ⟨d' :: ds', rfl, .cons h4 h3⟩

/-- The same cell with an equal or related value. -/
def CellNear (R : Fl K → Fl K → Prop) (x y : Cell K) : Prop := y.row = x.row ∧ y.col = x.col ∧ (y.val = x.val ∨ R x.val y.val)

theorem seen_near {R : Fl K → Fl K → Prop} {ds ds' : List (Delivery K)} (h : List.Forall₂ (NearColumn R) ds ds') : ∀ (t t' : Seen K), t'.ss = t.ss → t'.qs = t.qs →
    List.Forall₂ (CellNear R) t.cells t'.cells → (t'.run ds').ss = (t.run ds).ss ∧ (t'.run ds').qs = (t.run ds).qs ∧
      List.Forall₂ (CellNear R) (t.run ds).cells (t'.run ds').cells := by
  induction h with
  | nil => intro t t' h1 h2 h3; exact ⟨h1, h2, h3⟩
  | @cons d d' ds ds' hd _ ih =>
    intro t t' h1 h2 h3
    have hcell : ∀ (ss qs : Nat), List.Forall₂ (CellNear R) (d.cells ss qs) (d'.cells ss qs) := by
      intro ss qs
      rcases hd with rfl | ⟨c, v, v', rfl, rfl, hv⟩
      · exact List.forall₂_same.mpr fun _ _ => ⟨rfl, rfl, .inl rfl⟩
      · simp only [Delivery.cells]
        rw [List.forall₂_map_left_iff, List.forall₂_map_right_iff, List.forall₂_iff_get]
        refine ⟨by simpa using hv.length_eq, fun i h4 h5 => ?_⟩
        simp only [List.length_zipIdx] at h4 h5
        have := (List.forall₂_iff_get.mp hv).2 i h4 h5
        simp only [List.get_eq_getElem] at this
        simpa [CellNear] using this
    show ((t'.stepWith Delivery.cells d').runWith Delivery.cells ds').ss = ((t.stepWith Delivery.cells d).runWith Delivery.cells ds).ss ∧ _
    refine ih (t.stepWith Delivery.cells d) (t'.stepWith Delivery.cells d') ?_ ?_ ?_
    · rcases hd with rfl | ⟨c, v, v', rfl, rfl, hv⟩
      · cases d' <;> simp [Seen.stepWith, h1]
      · simp [Seen.stepWith, h1]
    · rcases hd with rfl | ⟨c, v, v', rfl, rfl, hv⟩
      · cases d' <;> simp [Seen.stepWith, h2]
      · simp [Seen.stepWith, h2]
    · have := List.rel_append h3 (hcell t.ss t.qs)
      rcases hd with rfl | ⟨c, v, v', rfl, rfl, hv⟩
      · cases d' <;> simp only [Seen.stepWith, h1, h2] <;> first | exact this | exact h3
      · simpa only [Seen.stepWith, h1, h2] using this

theorem forall₂_mem_left {β γ : Type} {R : β → γ → Prop} {l : List β} {l' : List γ} (h : List.Forall₂ R l l') {x : β} (hx : x ∈ l) : ∃ y ∈ l', R x y := by
  obtain ⟨i, hi, rfl⟩ := List.mem_iff_getElem.mp hx
  have hl := h.length_eq
  exact ⟨l'[i], List.getElem_mem _, (List.forall₂_iff_get.mp h).2 i hi (by omega)⟩

theorem forall₂_mem_right {β γ : Type} {R : β → γ → Prop} {l : List β} {l' : List γ} (h : List.Forall₂ R l l') {y : γ} (hy : y ∈ l') : ∃ x ∈ l, R x y := by
  obtain ⟨i, hi, rfl⟩ := List.mem_iff_getElem.mp hy
  have hl := h.length_eq
  exact ⟨l[i], List.getElem_mem _, (List.forall₂_iff_get.mp h).2 i (by omega) hi⟩

/-- The best of values near those of the calculated pairs. -/
theorem SeenFits.nearestWithin {m N : Nat} {M : Option Nat} {b : Int} {D : List α → List α → Fl ℝ} (hD : ∀ x y, ∃ z, D x y = .fin z) {u : MSt α} {t t' : Seen ℝ}
    (h : SeenFits m N M b D u t) {ε : ℝ} (hε : 0 ≤ ε) (hss : t'.ss = t.ss) (hcells : List.Forall₂ (CellNear (CloseVal ε)) t.cells t'.cells)
    (left : Bool) (c : Nat) (v : Fl ℝ) (i : Int) (hb : IsBest (entriesFor t'.cells ((c + t'.ss : Nat) : Int) left) v i) :
    NearestWithin ε (fun r => u.done r (c + (u.s.length - N)) ∧ (decide (r ≤ c + (u.s.length - N)) = left)) (fun r => u.cell D m b r (c + (u.s.length - N))) v i := by
  rw [hss, h.ss] at hb
  set C := c + (u.s.length - N) with hC
  have hval : ∀ r, u.cell D m b r C = .pinf ∨ ∃ z, u.cell D m b r C = .fin z := by
    intro r
    unfold MSt.cell
    split
    · exact .inl rfl
    · exact .inr (hD _ _)
  have hmem : ∀ (r : Nat), u.done r C ∧ (decide (r ≤ C) = left) → ∃ y, (y = u.cell D m b r C ∨ CloseVal ε (u.cell D m b r C) y) ∧
      (y, (r : Int)) ∈ entriesFor t'.cells (C : Int) left := by
    intro r hr
    obtain ⟨⟨a, b', y⟩, h1, h2, h3, h4⟩ := forall₂_mem_left hcells ((h.mem _).mpr ⟨r, C, hr.1, rfl⟩)
    simp only at h2 h3 h4
    subst h2 h3
    refine ⟨y, h4, ?_⟩
    rw [mem_entriesFor]
    refine ⟨h1, ?_⟩
    rw [← hr.2]; simp
  have hof : ∀ y i, (y, i) ∈ entriesFor t'.cells (C : Int) left → ∃ r : Nat, i = r ∧ (u.done r C ∧ (decide (r ≤ C) = left)) ∧
      (y = u.cell D m b r C ∨ CloseVal ε (u.cell D m b r C) y) := by
    intro y i hx
    obtain ⟨h1, h2⟩ := (mem_entriesFor _ _ _ _ _).mp hx
    obtain ⟨x, h3, h4, h5, h6⟩ := forall₂_mem_right hcells h1
    obtain ⟨r, c', h7, rfl⟩ := (h.mem _).mp h3
    simp only at h4 h5 h6
    obtain rfl : C = c' := by omega
    subst h4
    exact ⟨r, rfl, ⟨h7, by rw [← h2]; simp⟩, h6⟩
  have hlow : ∀ r x, u.done r C ∧ (decide (r ≤ C) = left) → u.cell D m b r C = .fin x → ∃ y : ℝ, |y - x| ≤ ε ∧ v ≤ .fin y := by
    intro r x hr hx
    obtain ⟨y, h1, h2⟩ := hmem r hr
    rw [hx] at h1
    have h3 := hb.lower _ h2
    rcases h1 with rfl | ⟨h1, -⟩ | ⟨a, z, h1, rfl, -, h4⟩
    · exact ⟨x, by simpa using hε, h3.resolve_left (by simp)⟩
    · cases h1
    · cases h1
      exact ⟨z, h4, h3.resolve_left (by simp)⟩
  rcases hb.attained with ⟨rfl, rfl⟩ | ⟨h1, pre, post, h2, -⟩
  · refine .inl ⟨rfl, rfl, fun r hr => ?_⟩
    rcases hval r with h3 | ⟨x, h3⟩
    · exact h3
    · obtain ⟨y, -, h5⟩ := hlow r x hr h3
      exact absurd h5 (not_le.mpr (by simp))
  · obtain ⟨r, rfl, h4, h5⟩ := hof v i (by rw [h2]; simp)
    obtain ⟨x, y, h6, h7, h8⟩ : ∃ x y : ℝ, u.cell D m b r C = .fin x ∧ v = .fin y ∧ |y - x| ≤ ε := by
      rcases h5 with h5 | ⟨-, h5⟩ | ⟨x, y, h6, h7, -, h8⟩
      · rcases hval r with h3 | ⟨x, h3⟩
        · rw [h5, h3] at h1; simp at h1
        · exact ⟨x, x, h3, h5.trans h3, by simpa using hε⟩
      · rw [h5] at h1; simp at h1
      · exact ⟨x, y, h6, h7, h8⟩
    refine .inr ⟨r, rfl, h4, x, y, h6, h7, h8, fun r' x' hr' hx' => ?_⟩
    obtain ⟨z, h9, h10⟩ := hlow r' x' hr' hx'
    rw [h7] at h10
    have h10 : y ≤ z := by simpa using h10
    have := (abs_le.mp h9).2
    linarith

theorem Spec.NearestWithin.congr {ε : ℝ} {P Q : Nat → Prop} {f : Nat → Fl ℝ} {v : Fl ℝ} {i : Int} (h : NearestWithin ε P f v i) (he : ∀ r, P r ↔ Q r) :
    NearestWithin ε Q f v i := by
  have : P = Q := funext fun r => propext (he r)
  rwa [← this]

/-- The nearer of the nearest on either side. -/
theorem Spec.NearestWithin.merge {ε : ℝ} {P Q : Nat → Prop} {f : Nat → Fl ℝ} {v w : Fl ℝ} {i j : Int} (h1 : NearestWithin ε P f v i) (h2 : NearestWithin ε Q f w j) :
    NearestWithin ε (fun r => P r ∨ Q r) f (if Fl.ltF v w then v else w) (if Fl.ltF v w then i else j) := by
  rcases h1 with ⟨rfl, rfl, e1⟩ | ⟨r, rfl, e1, x, y, e2, rfl, e3, e4⟩
  · rcases h2 with ⟨rfl, rfl, f1⟩ | ⟨r', rfl, f1, x', z, f2, rfl, f3, f4⟩
    · rw [if_neg (by rw [Fl.ltF_iff]; simp), if_neg (by rw [Fl.ltF_iff]; simp)]
      exact .inl ⟨rfl, rfl, fun r hr => hr.elim (e1 r) (f1 r)⟩
    · rw [if_neg (by rw [Fl.ltF_iff]; simp), if_neg (by rw [Fl.ltF_iff]; simp)]
      refine .inr ⟨r', rfl, .inr f1, x', z, f2, rfl, f3, fun r x hr hx => hr.elim (fun hr => ?_) (fun hr => f4 r x hr hx)⟩
      rw [e1 r hr] at hx; cases hx
  · rcases h2 with ⟨rfl, rfl, f1⟩ | ⟨r', rfl, f1, x', z, f2, rfl, f3, f4⟩
    · rw [if_pos (by rw [Fl.ltF_iff]; simp), if_pos (by rw [Fl.ltF_iff]; simp)]
      refine .inr ⟨r, rfl, .inl e1, x, y, e2, rfl, e3, fun r' x' hr hx => hr.elim (fun hr => e4 r' x' hr hx) (fun hr => ?_)⟩
      rw [f1 r' hr] at hx; cases hx
    · by_cases hlt : y < z
      · rw [if_pos (by rw [Fl.ltF_iff]; simpa using hlt), if_pos (by rw [Fl.ltF_iff]; simpa using hlt)]
        exact .inr ⟨r, rfl, .inl e1, x, y, e2, rfl, e3, fun r x hr hx => hr.elim (fun hr => e4 r x hr hx) (fun hr => by have := f4 r x hr hx; linarith)⟩
      · rw [if_neg (by rw [Fl.ltF_iff]; simpa using hlt), if_neg (by rw [Fl.ltF_iff]; simpa using hlt)]
        exact .inr ⟨r', rfl, .inr f1, x', z, f2, rfl, f3, fun r x hr hx => hr.elim (fun hr => by have := e4 r x hr hx; linarith) (fun hr => f4 r x hr hx)⟩

/-- `ShowsProfile` up to errors of `ε`: at window column `c`, which is position `C = c + (points dropped from the series window)` of the series, the left, right
and merged profile tell a nearest subsequence of the query among the rows `r` for which the pair (`r`, `C`) was calculated. -/
structure ShowsProfileWithin (ε : ℝ) (D : List α → List α → Fl ℝ) (m N : Nat) (b : Int) (u : MSt α) (p : ShiftingMP ℝ) : Prop where
  len : p.left.mp.items.length = N + 1 - m ∧ p.left.pi.items.length = N + 1 - m ∧ p.right.mp.items.length = N + 1 - m ∧ p.right.pi.items.length = N + 1 - m
  left : ∀ c < N + 1 - m, ∃ v i, p.left.mp.items[c]? = some v ∧ p.left.pi.items[c]? = some i ∧
    NearestWithin ε (fun r => u.done r (c + (u.s.length - N)) ∧ r ≤ c + (u.s.length - N)) (fun r => u.cell D m b r (c + (u.s.length - N))) v i
  right : ∀ c < N + 1 - m, ∃ v i, p.right.mp.items[c]? = some v ∧ p.right.pi.items[c]? = some i ∧
    NearestWithin ε (fun r => u.done r (c + (u.s.length - N)) ∧ c + (u.s.length - N) < r) (fun r => u.cell D m b r (c + (u.s.length - N))) v i
  merged : ∀ c < N + 1 - m, ∃ v i, (MP.merged p.left.mp.items p.right.mp.items)[c]? = some v ∧
    (MP.mergedIdx p.left.mp.items p.right.mp.items p.left.pi.items p.right.pi.items)[c]? = some i ∧
    NearestWithin ε (fun r => u.done r (c + (u.s.length - N))) (fun r => u.cell D m b r (c + (u.s.length - N))) v i

theorem ShiftingMP.feed_run [LinearOrder K] (gops : GenOps G K) (memF : Nat → List (Fl K)) (memI : Nat → List Int) (scale : ℚ) :
    ∀ (ds : List (Delivery K)) (p : ShiftingMP K), feed (ShiftingMP.ops memF memI scale gops) p (ds.map Delivery.event) = p.run ds := by
  intro ds
  induction ds with
  | nil => intro p; rfl
  | cons d ds ih =>
    intro p
    have ed : d.event.apply (ShiftingMP.ops memF memI scale gops) p = p.deliver d := by cases d <;> rfl
    show (do feed _ (← d.event.apply (ShiftingMP.ops memF memI scale gops) p) (ds.map Delivery.event)) = (do let p ← p.deliver d; p.run ds)
    rw [ed]
    cases p.deliver d with
    | error e => rfl
    | ok p1 => exact ih p1

theorem ShiftingMP.ops_initialise [LinearOrder K] (gops : GenOps G K) (memF : Nat → List (Fl K)) (memI : Nat → List Int) (scale : ℚ) {h w : Int} {p o : ShiftingMP K}
    (hp : ShiftingMP.initialise memF memI scale h w = .ok p) (h0 : p.seriesShift = 0 ∧ p.queryShift = 0) (ho : o.seriesShift = 0 ∧ o.queryShift = 0) (dims : Nat) :
    (ShiftingMP.ops memF memI scale gops).initialise o dims h w = .ok p := by
  show (ShiftingMP.initialise memF memI scale _ _).map _ = _
  rw [hp]
  show Except.ok { p with seriesShift := o.seriesShift, queryShift := o.queryShift } = Except.ok p
  obtain ⟨a1, a2, a3, a4, a5⟩ := p
  simp only at h0
  rw [ho.1, ho.2, h0.1, h0.2]

/-- **C89, profiles.** `ShiftingMatrixProfileLR` consumers (objects that were never shifted before, and the ids of their generators) in such a calculation:
every entry of the left, right and merged profile is within `S.floatErr` of the distance to the subsequence named by the index, and no calculated pair on
that side is closer by more than `S.floatErr`. -/
theorem C89_profile (S : StreamCase α) (F : FloatEnv) (b : FloatBounds) (memF : Nat → List (Fl ℝ)) (memI : Nat → List Int) (hF : ∀ n, (memF n).length = n)
    (hI : ∀ n, (memI n).length = n) (scale : ℚ) (h1 : 1 ≤ scale) (h2 : scale ≤ 2) (cs : List (ShiftingMP ℝ × Nat))
    (hfresh : ∀ c ∈ cs, c.1.seriesShift = 0 ∧ c.1.queryShift = 0) (hS : S.FloatOk F b (cs.map fun c => [c.2])) :
    ∃ cons', S.floatResult F (ShiftingMP.ops memF memI scale) (cs.map fun c => (c.1, [c.2])) = .ok cons' ∧
      List.Forall₂ (fun c p => p.2 = [c.2] ∧ ShowsProfileWithin (S.floatErr F b c.2) (streamDist S.π S.m S.kinds c.2) S.m S.N S.b S.last p.1) cs cons' := by
  refine StreamCase.floatConsumers (ShiftingMP.ops memF memI scale) (fun _ => rfl) cs (fun c => (c.1, [c.2])) hS
    (fun c p => ShowsProfileWithin (S.floatErr F b c.2) (streamDist S.π S.m S.kinds c.2) S.m S.N S.b S.last p) fun c hc => ?_
  obtain ⟨o, id⟩ := c
  have hlt : id < S.kinds.length := hS.id_lt (List.mem_map_of_mem (f := fun c : ShiftingMP ℝ × Nat => [c.2]) hc) (by simp)
  have hdel := hS.dels_valid hlt
  obtain ⟨p, e1, hp⟩ := ShiftingMP.initialise_inv (K := ℝ) memF memI hF hI scale h1 h2 S.h S.w (by unfold StreamCase.w; have := hS.args.series; omega)
  refine ⟨p, ShiftingMP.ops_initialise _ _ _ _ e1 ⟨hp.ss, hp.qs⟩ (hfresh _ hc) _, fun es hes => ?_⟩
  simp only [StreamCase.events_single] at hes
  obtain ⟨ds, rfl, hds⟩ := nearEvent_deliveries _ hes
  have hdel' : ∀ d ∈ ds, d.Valid S.h S.w ∧ d.ColumnClean := by
    intro d' hd'
    obtain ⟨d, g1, g2⟩ := forall₂_mem_right hds hd'
    have g3 := hdel d g1
    rcases g2 with rfl | ⟨c, v, v', rfl, rfl, hv⟩
    · exact g3
    · obtain ⟨⟨v1, v2, v3⟩, v4⟩ := g3
      have hl := hv.length_eq
      refine ⟨⟨v1, by rw [← List.length_pos_iff]; have := List.length_pos_iff.mpr v2; omega, by omega⟩, fun hn => v4 ?_⟩
      obtain ⟨x, g4, g5⟩ := forall₂_mem_right hv hn
      rcases g5 with rfl | ⟨-, g5⟩ | ⟨a, z, -, g5, -⟩
      · exact g4
      · cases g5
      · cases g5
  obtain ⟨p', e2, hp'⟩ := ShiftingMP.run_inv _ (fun d hd => (hdel' d hd).1) _ p hp
  rw [run_of_clean _ fun d hd => (hdel' d hd).2] at hp'
  refine ⟨p', by rw [ShiftingMP.feed_run]; exact e2, ?_⟩
  have hfit := hS.fits id
  obtain ⟨t1, t2, t3⟩ := seen_near hds Seen.init Seen.init rfl rfl .nil
  set u := S.last with hu
  set t' := Seen.init.run ds with ht'
  have hD : ∀ x y, ∃ z, streamDist S.π S.m S.kinds id x y = .fin z := fun x y => ⟨_, streamDist_value _ _ _ _ hlt _ _⟩
  have hε := hS.floatErr_nonneg id
  have hL := fun c hc => hp'.left.holds.get (c := c) hc
  have hR := fun c hc => hp'.right.holds.get (c := c) hc
  have nL : ∀ c, NearestWithin (S.floatErr F b id) (fun r => u.done r (c + (u.s.length - S.N)) ∧ r ≤ c + (u.s.length - S.N))
      (fun r => u.cell (streamDist S.π S.m S.kinds id) S.m S.b r (c + (u.s.length - S.N)))
      (ShiftingMP.Want t' true c).1 (ShiftingMP.Want t' true c).2 := fun c => (hfit.nearestWithin hD hε t1 t3 true c _ _ (best_isBest _)).congr fun r => by
    simp only [decide_eq_true_eq]
  have nR : ∀ c, NearestWithin (S.floatErr F b id) (fun r => u.done r (c + (u.s.length - S.N)) ∧ c + (u.s.length - S.N) < r)
      (fun r => u.cell (streamDist S.π S.m S.kinds id) S.m S.b r (c + (u.s.length - S.N)))
      (ShiftingMP.Want t' false c).1 (ShiftingMP.Want t' false c).2 := fun c => (hfit.nearestWithin hD hε t1 t3 false c _ _ (best_isBest _)).congr fun r => by
    simp only [decide_eq_false_iff_not, not_le]
  refine ⟨⟨hp'.left.holds.len.1, hp'.left.holds.len.2, hp'.right.holds.len.1, hp'.right.holds.len.2⟩,
    fun c hc => ⟨_, _, (hL c hc).1, (hL c hc).2, nL c⟩, fun c hc => ⟨_, _, (hR c hc).1, (hR c hc).2, nR c⟩, fun c hc => ?_⟩
  obtain ⟨g1, g2⟩ := MP.merged_get _ _ _ _ c _ _ _ _ (hL c hc).1 (hR c hc).1 (hL c hc).2 (hR c hc).2
  refine ⟨_, _, g1, g2, ((nL c).merge (nR c)).congr fun r => ⟨?_, fun h => (le_or_gt r (c + (u.s.length - S.N))).imp (⟨h, ·⟩) (⟨h, ·⟩)⟩⟩
  rintro (h | h) <;> exact h.1

end Verif
