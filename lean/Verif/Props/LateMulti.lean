import Verif.Props.LateConsumers
import Verif.Props.MultiProfile

/-!
# C101: `MultidimensionalMatrixProfileLR` objects that are added to a `StreamingCalculator` at any time
-/

namespace Verif
open Spec
variable {α G K : Type}

namespace MDMP
variable [Field K] [LinearOrder K]

/-- Columns do not read the row numbers that diagonals use. -/
theorem columnLoop_range (argsort : List (Fl K) → List Nat) (c : Int) (vals : List (List (Fl K))) (border : Int) (R : RB Int) : ∀ (dims : List Nat) (p : MDMP K) (cum : List (Fl K)),
    columnLoop argsort c vals border { p with range := R } cum dims = (columnLoop argsort c vals border p cum dims).map fun p => { p with range := R }
  | [], _, _ => rfl
  | dim :: rest, p, cum => by
    unfold columnLoop
    cases (vals.map npSort).mapM (pyGet · (dim : Int)) with
    | error e => rfl
    | ok row =>
      show (do
          let left ← p.columnLeft argsort dim c vals (List.zipWith Fl.add cum row) border
          let right ← p.columnRight argsort dim c vals (List.zipWith Fl.add cum row) border
          columnLoop argsort c vals border { ({ p with left := left, right := right } : MDMP K) with range := R } (List.zipWith Fl.add cum row) rest) = Except.map _ (do
          let left ← p.columnLeft argsort dim c vals (List.zipWith Fl.add cum row) border
          let right ← p.columnRight argsort dim c vals (List.zipWith Fl.add cum row) border
          columnLoop argsort c vals border { p with left := left, right := right } (List.zipWith Fl.add cum row) rest)
      cases p.columnLeft argsort dim c vals (List.zipWith Fl.add cum row) border with
      | error e => rfl
      | ok l =>
        cases p.columnRight argsort dim c vals (List.zipWith Fl.add cum row) border with
        | error e => rfl
        | ok r => exact columnLoop_range argsort c vals border R rest _ _

/-- Columns and shifts do not depend on the row numbers that diagonals use. -/
theorem run_range (argsort : List (Fl K) → List Nat) (D w : Nat) : ∀ (ds : List (MDelivery K)) (p p' : MDMP K) (R : RB Int), R.Good w → R.items.length = w → ColumnsOnly D w ds →
    p.run argsort D ds = .ok p' → ∃ R' : RB Int, ({ p with range := R } : MDMP K).run argsort D ds = .ok { p' with range := R' }
  | [], p, p', R, _, _, _, h => by
    obtain rfl : p = p' := Except.ok.inj h
    exact ⟨R, rfl⟩
  | x :: ds, p, p', R, hR, hl, hds, h => by
    have h0 := hds x (List.mem_cons_self ..)
    unfold run at h
    rw [List.foldlM_cons] at h
    obtain ⟨p1, e1, e2⟩ := bind_ok_iff.mp h
    have key : ∃ R1 : RB Int, R1.Good w ∧ R1.items.length = w ∧ deliver argsort D { p with range := R } x = .ok { p1 with range := R1 } := by
      cases x with
      | column c vals =>
        refine ⟨R, hR, hl, ?_⟩
        have e1 : p.processColumn argsort c D vals = .ok p1 := e1
        show processColumn argsort { p with range := R } c D vals = _
        unfold processColumn at e1 ⊢
        rw [columnLoop_range, e1]
        rfl
      | diag d vals => exact absurd h0 (by simp)
      | shiftSeries n =>
        refine ⟨R, hR, hl, ?_⟩
        have e1 : p.shiftSeries n = .ok p1 := e1
        show shiftSeries { p with range := R } n = _
        unfold shiftSeries at e1 ⊢
        by_cases hn : (n : Int) = 0
        · rw [if_pos hn] at e1 ⊢
          rw [Except.ok.inj e1]
        · rw [if_neg hn, if_neg (by omega)] at e1 ⊢
          obtain ⟨l, a1, a2⟩ := bind_ok_iff.mp e1
          obtain ⟨r, a3, a4⟩ := bind_ok_iff.mp a2
          simp only [a1, a3, bind, Except.bind]
          rw [← Except.ok.inj a4]
          rfl
      | shiftQuery n =>
        have e1 : p.shiftQuery n = .ok p1 := e1
        show ∃ R1 : RB Int, R1.Good w ∧ R1.items.length = w ∧ shiftQuery { p with range := R } n = _
        unfold shiftQuery at e1 ⊢
        by_cases hn : (n : Int) = 0
        · rw [if_pos hn] at e1 ⊢
          exact ⟨R, hR, hl, by rw [Except.ok.inj e1]⟩
        · rw [if_neg hn] at e1 ⊢
          obtain ⟨l, a1, a2⟩ := bind_ok_iff.mp e1
          obtain ⟨⟨r, d⟩, a3, a4⟩ := bind_ok_iff.mp a2
          have hlast : ∃ last, pyGet R.items (-1) = .ok last := by
            have hp := hR.pos
            unfold pyGet
            simp only [show (-1 : Int) < 0 by omega, if_true, hl]
            rw [if_neg (by omega), List.getElem?_eq_getElem (by rw [hl]; omega)]
            exact ⟨_, rfl⟩
          obtain ⟨last, hlast⟩ := hlast
          obtain ⟨rb, b1, b2, b3, -⟩ := hR.push (pyRange (last + 1) (last + 1 + n))
          refine ⟨rb, b2, by rw [b3, lastN_length, List.length_append]; omega, ?_⟩
          simp only [hlast, b1, bind, Except.bind]
          rw [← Except.ok.inj a4]
          rfl
    obtain ⟨R1, hR1, hl1, f1⟩ := key
    obtain ⟨R2, f2⟩ := run_range argsort D w ds p1 p' R1 hR1 hl1 (fun y hy => hds y (List.mem_cons_of_mem _ hy)) e2
    refine ⟨R2, ?_⟩
    unfold run at f2 ⊢
    rw [List.foldlM_cons, f1]
    exact f2

end MDMP

/-- Proper memory and scaling factor. -/
structure MDObj.Proper (o : MDObj K) : Prop where
  memF : ∀ n, (o.memF n).length = n
  memI : ∀ n, (o.memI n).length = n
  memR : ∀ n, (o.memR n).length = n
  scale1 : 1 ≤ o.scale
  scale2 : o.scale ≤ 2

theorem MDObj.New.proper {o : MDObj K} (h : o.New) : o.Proper := ⟨h.memF, h.memI, h.memR, h.scale1, h.scale2⟩

/-- The object is new, or it has been told that `s` points have left the series window and `t` points the query window. -/
def MDObj.At (s t : Nat) (o : MDObj K) : Prop :=
  (o.st = none ∧ s = 0 ∧ t = 0) ∨ ∃ p, o.st = some p ∧ p.seriesShift = s ∧ p.queryShift = t

/-- An object that is initialised again keeps its shifts and forgets everything else; apart from the row numbers for diagonals it is as one that has seen the shifts and no
column. -/
theorem MDObj.initialise_from [Field K] [LinearOrder K] [IsStrictOrderedRing K] (argsort : List (Fl K) → List Nat) (gops : GenOps G K) (o : MDObj K) (ho : o.Proper) (D w s t : Nat)
    (hw : 0 < w) (hat : o.At s t) (h : Int) :
    ∃ (p : MDMP K) (R : RB Int), (MDMP.ops argsort gops).initialise o D h w = .ok { o with st := some { p with range := R } } ∧ R.Good w ∧ R.items.length = w ∧ p.Inv D w ⟨s, t, ∅⟩ := by
  obtain ⟨p, e1, e2⟩ := MDMP.initialise_inv o.memF o.memI o.memR ho.memF ho.memI ho.memR o.scale ho.scale1 ho.scale2 D w hw
  obtain ⟨q, -, f2⟩ := MDMP.shiftQuery_inv e2 t
  refine ⟨{ p with seriesShift := s, queryShift := t, range := q.range }, p.range, ?_, e2.rangeGood, by rw [e2.range]; simp, e2.nDim, f2.rangeGood, ?_, e2.left.congr ?_, e2.right.congr ?_, rfl, rfl, by simp⟩
  · show MDObj.initialise o D (w : Int) = _
    unfold MDObj.initialise
    rw [if_neg (by omega), Int.toNat_natCast, e1]
    rcases hat with ⟨a1, rfl, rfl⟩ | ⟨p0, a1, a2, a3⟩
    · rw [a1]
      have h1 := e2.ss
      have h2 := e2.qs
      obtain ⟨_, _, _, _, _, _⟩ := p
      simp only [MSeen.init] at h1 h2
      subst h1 h2
      rfl
    · rw [a1]
      simp only [Except.map, a2, a3]
  · have := f2.range
    simpa [MSeen.init, MSeen.step] using this
  · intro k _ c _
    simp [MSeen.sel, MSeen.init]
  · intro k _ c _
    simp [MSeen.sel, MSeen.init]

/-- A `MultidimensionalMatrixProfileLR` object that receives the calls of a streaming calculation from some time on. -/
theorem MDMP.fed_from (argsort : List (Fl ℝ) → List Nat) (has : ∀ l, IsArgsort l (argsort l)) (gops : GenOps G ℝ) {o : MDObj ℝ} (ho : o.Proper) {ids : List Nat} (hne : ids ≠ [])
    {m N : Nat} {Mq : Option Nat} {b : Int} {D : Nat → List α → List α → Fl ℝ} {us : List (MOp α)} {u0 : MSt α} (hm0 : 0 < m) (hN : m ≤ N) (hM : ∀ M', Mq = some M' → m ≤ M')
    (hD : ∀ id ∈ ids, ∀ x y, D id x y ≠ .ninf ∧ D id x y ≠ .nan) (hv : u0.All m N Mq (fun u op => u.Valid m Mq op) us) (ss qs : Nat)
    (h0 : ∀ id, SeenFits m N Mq b (D id) u0 ⟨ss, qs, []⟩) (hat : o.At ss qs) (h : Int) :
    ∃ p0 p', (MDMP.ops argsort gops).initialise o ids.length h (N + 1 - m : Nat) = .ok p0 ∧
      feed (MDMP.ops argsort gops) p0 (MSt.allEvents m N Mq b D ids u0 us) = .ok p' ∧
      p'.Proper ∧ p'.At ((u0.run m N Mq us).s.length - N) ((u0.run m N Mq us).q.length - Mq.getD N) ∧
      ∃ p, p'.st = some p ∧ ShowsWith ids.length (N + 1 - m) ((u0.run m N Mq us).s.length - N)
        (fun r c => (u0.run m N Mq us).done r c ∧ ¬ ((r : Int) - c ≤ b ∧ (c : Int) - r ≤ b))
        (MultiMinV ids fun id r c => (u0.run m N Mq us).cell (D id) m b r c) p := by
  obtain ⟨id0, hid0⟩ := List.exists_mem_of_ne_nil ids hne
  let u := u0.run m N Mq us
  let L := allStreamShapes m N Mq b D u0 us
  have hev : MSt.allEvents m N Mq b D ids u0 us = L.map (·.event ids) := (allStreamShapes_event ..).symm
  have hdel : ∀ id, MSt.allDeliveries m N Mq b (D id) u0 us = L.map (·.delivery id) := fun id => (allStreamShapes_delivery ..).symm
  have hfits : ∀ id, SeenFits m N Mq b (D id) u (Seen.run ⟨ss, qs, []⟩ (MSt.allDeliveries m N Mq b (D id) u0 us)) := fun id =>
    SeenFits.run hm0 us u0 _ (h0 id) hv
  have hhist : ColumnsOnly ids.length (N + 1 - m) (L.map (·.multi ids)) := by
    intro y hy
    obtain ⟨x, hx, rfl⟩ := List.mem_map.mp hy
    have hval := (allDeliveries_valid hm0 (fun x y => (hD id0 hid0 x y).2) us u0 (h0 id0).self hM hN hv (x.delivery id0) (by rw [hdel]; exact List.mem_map_of_mem hx)).1
    rcases mem_allStreamShapes hx with ⟨n, rfl | rfl⟩ | ⟨c, n, u, ρ, γ, rfl⟩
    · trivial
    · trivial
    · refine ⟨hval.1, fun e => hval.2.1 ?_, fun vec hv => ?_⟩
      · have := congrArg List.length e
        simp only [List.length_map, List.length_range, List.length_nil] at this
        rw [this]; rfl
      · obtain ⟨j, hj, rfl⟩ := List.mem_map.mp hv
        refine ⟨by simp, fun z hz => ?_⟩
        obtain ⟨id, hid, rfl⟩ := List.mem_map.mp hz
        simp only [MSt.cell]
        split
        · simp
        · exact hD id hid _ _
  obtain ⟨p, R, e1, hR, hRl, e4⟩ := MDObj.initialise_from argsort gops o ho ids.length (N + 1 - m) ss qs (by omega) hat h
  obtain ⟨p', e2, e5⟩ := MDMP.run_inv argsort has ids.length (N + 1 - m) _ p _ e4 (hhist.ok _)
  obtain ⟨R', e6⟩ := MDMP.run_range argsort ids.length (N + 1 - m) _ p p' R hR hRl hhist e2
  have e3 : MDAnswers ids.length (N + 1 - m) ((⟨ss, qs, ∅⟩ : MSeen ℝ).run (L.map (·.multi ids))) { p' with range := R' } :=
    ⟨e5.answers.left, e5.answers.right, e5.answers.merged⟩
  obtain ⟨Z, hZ⟩ := Shape.Same.run L (S := ∅) (t := (⟨ss, qs, ∅⟩ : MSeen ℝ)) (u := fun _ => ⟨ss, qs, []⟩) (ids := ids)
    ⟨fun _ => rfl, fun _ => rfl, fun y => by simp, fun id y => by simp⟩
  have hss : ((⟨ss, qs, ∅⟩ : MSeen ℝ).run (L.map (·.multi ids))).ss = u.s.length - N := by
    rw [← hZ.ss id0]
    show (Seen.run ⟨ss, qs, []⟩ (L.map (·.delivery id0))).ss = _
    rw [← hdel]
    exact (hfits id0).ss
  have hqs : ((⟨ss, qs, ∅⟩ : MSeen ℝ).run (L.map (·.multi ids))).qs = u.q.length - Mq.getD N := by
    rw [← hZ.qs id0]
    show (Seen.run ⟨ss, qs, []⟩ (L.map (·.delivery id0))).qs = _
    rw [← hdel]
    exact (hfits id0).qs
  have hcell : ∀ id ∈ ids, ∀ z ∈ Z, ∃ r c : Nat, u.done r c ∧ z.1 = (r : Int) ∧ z.2.1 = (c : Int) ∧ z.2.2 id = u.cell (D id) m b r c := by
    intro id hid z hz
    have hy : (⟨z.1, z.2.1, z.2.2 id⟩ : Cell ℝ) ∈ (Seen.run ⟨ss, qs, []⟩ (MSt.allDeliveries m N Mq b (D id) u0 us)).cells := by
      rw [hdel]; exact (hZ.single id _).mpr ⟨z, hz, rfl⟩
    obtain ⟨r, c, hd, e⟩ := ((hfits id).mem _).mp hy
    simp only [Cell.mk.injEq] at e
    exact ⟨r, c, hd, e⟩
  have hvals : ∀ z ∈ Z, ∃ r c : Nat, u.done r c ∧ z.1 = (r : Int) ∧ z.2.1 = (c : Int) ∧ ids.map z.2.2 = ids.map fun id => u.cell (D id) m b r c := by
    intro z hz
    obtain ⟨r, c, hd, z1, z2, -⟩ := hcell id0 hid0 z hz
    refine ⟨r, c, hd, z1, z2, List.map_congr_left fun id hid => ?_⟩
    obtain ⟨r', c', -, y1, y2, y3⟩ := hcell id hid z hz
    have f1 : r' = r := by rw [z1] at y1; exact_mod_cast y1.symm
    have f2 : c' = c := by rw [z2] at y2; exact_mod_cast y2.symm
    subst f1 f2
    exact y3
  refine ⟨{ o with st := some { p with range := R } }, { o with st := some { p' with range := R' } }, e1, ?_, ⟨ho.memF, ho.memI, ho.memR, ho.scale1, ho.scale2⟩,
    .inr ⟨_, rfl, ?_, ?_⟩, { p' with range := R' }, rfl, ?_⟩
  · rw [hev, MDMP.feed_eq argsort _ ids hne L _ _ rfl, e6]; rfl
  · show p'.seriesShift = _
    rw [e5.ss, hss]
  · show p'.queryShift = _
    rw [e5.qs, hqs]
  · have := showsMulti hZ e3 (fun r c => u.done r c ∧ ¬ ((r : Int) - c ≤ b ∧ (c : Int) - r ≤ b)) (fun id r c => u.cell (D id) m b r c) ?_ ?_
    · rwa [hss] at this
    · intro z hz
      obtain ⟨r, c, hd, z1, z2, hv⟩ := hvals z hz
      refine ⟨r, c, z1, z2, ?_⟩
      by_cases hf : (r : Int) - c ≤ b ∧ (c : Int) - r ≤ b
      · right
        rw [hv]
        refine List.map_congr_left fun id _ => ?_
        unfold MSt.cell
        rw [if_pos hf]
      · exact .inl ⟨⟨hd, hf⟩, hv⟩
    · rintro r c - ⟨hd, hf⟩
      have hy := ((hfits id0).mem _).mpr ⟨r, c, hd, rfl⟩
      rw [hdel] at hy
      obtain ⟨z, hz, e⟩ := (hZ.single id0 _).mp hy
      simp only [Cell.mk.injEq] at e
      refine ⟨z, hz, e.1.symm, e.2.1.symm, ?_⟩
      obtain ⟨r', c', -, y1, y2, hv⟩ := hvals z hz
      have f1 : r' = r := by rw [← e.1] at y1; exact_mod_cast y1.symm
      have f2 : c' = c := by rw [← e.2.1] at y2; exact_mod_cast y2.symm
      subst f1 f2
      exact hv


/-- What a multidimensional profile shows in state `u` of a streaming calculation: row `k` holds for every subsequence in the series window the smallest mean of `k + 1` of the
distances by the generators `ids` over the calculated pairs outside of the trivial match band, the row and the generators. -/
def ShowsMultiIn (d : Nat → List α → List α → ℝ) (m N : Nat) (b : Int) (ids : List Nat) (u : MSt α) (o : MDObj ℝ) : Prop :=
  ∃ p, o.st = some p ∧ ShowsMulti ids.length (N + 1 - m) (u.s.length - N) (fun r c => u.done r c ∧ ¬ ((r : Int) - c ≤ b ∧ (c : Int) - r ≤ b))
    (fun i r c => d (ids.getD i 0) ((u.s.drop c).take m) ((u.q.drop r).take m)) p

/-- What a multidimensional profile holds that was initialised several times, each time for some generators. -/
theorem multi_lives (argsort : List (Fl ℝ) → List Nat) (has : ∀ l, IsArgsort l (argsort l)) (gops : GenOps G ℝ) (m N : Nat) (M : Option Nat) (hm0 : 0 < m) (hN : m ≤ N)
    (hM : ∀ M', M = some M' → m ≤ M') (buffer : Option Int) (D : Nat → List α → List α → Fl ℝ) (d : Nat → List α → List α → ℝ) (a b : Nat) :
    ∀ (l : List (Span (MSt α) (MOp α))) (y : Span (MSt α) (MOp α)) (o : MDObj ℝ), o.Proper →
      (∀ z ∈ y :: l, (z.ids ≠ [] ∧ ∀ id ∈ z.ids, ∀ x y, D id x y = .fin (d id x y)) ∧ z.start.All m N M (fun u op => u.Valid m M op) z.ops) →
      Spec.Linked (fun u op => u.step m N M op) (y :: l) → Gone N M a b y.start → o.At (y.start.s.length - a - N) (y.start.q.length - b - M.getD N) →
      ∃ z p, (y :: l).getLast? = some z ∧
        live (MDMP.ops argsort gops) ((M.getD N + 1 - m : Nat) : Int) ((N + 1 - m : Nat) : Int) o
          ((y :: l).map fun y => (y.ids, MSt.allEvents m N M (bufferOf m M buffer) D y.ids y.start y.ops)) = .ok p ∧
        ShowsMultiIn d m N (bufferOf m M buffer) z.ids ((z.start.since a b).run m N M z.ops) p := by
  have hM' : m ≤ M.getD N := by
    cases M with
    | none => exact hN
    | some M' => exact hM M' rfl
  have shows : ∀ {ids : List Nat} {u : MSt α} {p : MDMP ℝ}, (∀ id ∈ ids, ∀ x y, D id x y = .fin (d id x y)) →
      ShowsWith ids.length (N + 1 - m) (u.s.length - N) (fun r c => u.done r c ∧ ¬ ((r : Int) - c ≤ bufferOf m M buffer ∧ (c : Int) - r ≤ bufferOf m M buffer))
        (MultiMinV ids fun id r c => u.cell (D id) m (bufferOf m M buffer) r c) p →
      ShowsMulti ids.length (N + 1 - m) (u.s.length - N) (fun r c => u.done r c ∧ ¬ ((r : Int) - c ≤ bufferOf m M buffer ∧ (c : Int) - r ≤ bufferOf m M buffer))
        (fun i r c => d (ids.getD i 0) ((u.s.drop c).take m) ((u.q.drop r).take m)) p := by
    intro ids u p hD h
    refine h.multi (fun id r c => d id ((u.s.drop c).take m) ((u.q.drop r).take m)) fun r c hd id hid => ?_
    unfold MSt.cell
    rw [if_neg hd.2, hD id hid]
  intro l
  induction l with
  | nil =>
    intro y o ho hl _ hg hat
    obtain ⟨⟨hi, hD⟩, hv⟩ := hl y (by simp)
    obtain ⟨p, p', e1, e2, -, -, q, e3, e4⟩ := MDMP.fed_from argsort has gops ho hi hm0 hN hM (fun id hid x y => by rw [hD id hid]; simp)
      (SameWindows.valid hN hM' y.ops _ _ (.since hg) hv) _ _ (fun id => SeenFits.since m (bufferOf m M buffer) (D id) hg) hat ((M.getD N + 1 - m : Nat) : Int)
    refine ⟨y, p', rfl, ?_, q, e3, shows hD e4⟩
    simp only [List.map_cons, List.map_nil, live]
    rw [e1]
    simp only [bind, Except.bind]
    rw [C98_windows m N M buffer D y.ids y.start a b hg y.ops hv, e2]
  | cons y' l ih =>
    intro y o ho hl hk hg hat
    obtain ⟨⟨hi, hD⟩, hv⟩ := hl y (by simp)
    obtain ⟨p, p', e1, e2, e3, e4, -⟩ := MDMP.fed_from argsort has gops ho hi hm0 hN hM (fun id hid x y => by rw [hD id hid]; simp)
      (SameWindows.valid hN hM' y.ops _ _ (.since hg) hv) _ _ (fun id => SeenFits.since m (bufferOf m M buffer) (D id) hg) hat ((M.getD N + 1 - m : Nat) : Int)
    obtain ⟨g1, g2, -⟩ := C98_since (K := ℝ) m N M y.start a b hg y.ops hv
    have hst : y'.start = y.start.run m N M y.ops := hk.1
    rw [g1, g2, List.length_drop, List.length_drop, ← hst] at e4
    obtain ⟨z, p2, r1, r2, r3⟩ := ih y' p' e3 (fun z hz => hl z (List.mem_cons_of_mem _ hz)) hk.2 (by rw [hst]; exact hg.run y.ops _ hv) e4
    refine ⟨z, p2, by rw [List.getLast?_cons_cons]; exact r1, ?_, r3⟩
    rw [List.map_cons, live, e1]
    simp only [bind, Except.bind]
    rw [C98_windows m N M buffer D y.ids y.start a b hg y.ops hv, e2]
    exact r2

/-- **C101.** A session with a `StreamingCalculator` in which new `MultidimensionalMatrixProfileLR` objects are added at any time, each for any generators (at least one) that are
there, and may be added again, for other generators or another number of them: no act raises, and row `k` of every object shows for every subsequence in the series window the
smallest mean of `k + 1` of the distances over the pairs that were calculated since it was last added and over all choices of `k + 1` of its generators, with the row and the
generators that attain it. Positions are counted from the beginning of what the windows held when it was first added, both in the indices and in telling left from right
(`C101_late_wrong`; `C98_since` explains `since`). Partial: the restrictions of `C90_stream_session_partial`; objects must not come from another calculation
(`C71_reused_raises`). -/
theorem C101_late_multi_partial (memE : Nat → List (Fl ℝ)) (hmemE : ∀ n, (memE n).length = n) (memZ : ZN.Mem) (hmemZ : memZ.Ok)
    (argsort : List (Fl ℝ) → List Nat) (has : ∀ l, IsArgsort l (argsort l)) (π : Nat → α → ℝ) (m N : Nat) (M : Option Nat) (nDim : Nat) (buffer : Option Int)
    (as : List (SAct (GenKind × Nat) (MDObj ℝ) (MOp α))) (bs : List (Act GenKind (MDObj ℝ) (Streaming.Op ℝ)))
    (ha : StreamArgs m N M nDim buffer (SAct.gens as) [] [])
    (hacts : AreActs (fun u op => u.step m N M op) (IsStreamCall π m N M nDim (SAct.gens as)) (fun _ => True) 0 [] MSt.init as bs) (hcu : CaughtUp m N M [] MSt.init as)
    (hids : ∀ a ∈ as, a.Adds fun ids => ids ≠ [] ∧ ∀ id ∈ ids, id < (SAct.gens as).length)
    (hnew : ∀ c ids, SAct.consumer c ids ∈ as → c.New) :
    ∃ cons, streamSession (MDMP.ops argsort (GenKind.ops memE memZ)) (fun k => k.streaming memE memZ) m N (M.map fun M : Nat => (M : Int)) nDim buffer bs = .ok cons ∧
      List.Forall₂ (fun x c => ∃ y z, x.2.head? = some y ∧ x.2.getLast? = some z ∧ c.2 = z.ids ∧
        ShowsMultiIn (streamValue π m (SAct.gens as)) m N (bufferOf m M buffer) z.ids
          ((z.start.since (y.start.s.length - N) (y.start.q.length - M.getD N)).run m N M z.ops) c.1) (streamSpans m N M as) cons := by
  set ops := MDMP.ops argsort (GenKind.ops memE memZ) with hops
  set Δ := streamDist π m (SAct.gens as) with hΔ
  have hlast : ∀ x ∈ streamSpans m N M as, ∃ y z p, x.2.head? = some y ∧ x.2.getLast? = some z ∧
      live ops ((M.getD N + 1 - m : Nat) : Int) ((N + 1 - m : Nat) : Int) x.1 (x.2.map fun y => (y.ids, MSt.allEvents m N M (bufferOf m M buffer) Δ y.ids y.start y.ops)) = .ok p ∧
      ShowsMultiIn (streamValue π m (SAct.gens as)) m N (bufferOf m M buffer) z.ids ((z.start.since (y.start.s.length - N) (y.start.q.length - M.getD N)).run m N M z.ops) p := by
    intro x hx
    have hf := Spec.spans_objects _ (fun c : MDObj ℝ => c.New) as MSt.init [] hnew (by simp) x hx
    obtain ⟨hv, hk⟩ := streamSpans_valid π m N M nDim as bs hacts x hx
    obtain ⟨hne, hi⟩ := Spec.spans_mem _ _ (fun _ => True) as MSt.init [] hids (fun _ _ => trivial) (by simp) x hx
    cases hxl : x.2 with
    | nil => exact absurd hxl hne
    | cons y l =>
      rw [hxl] at hv hk hi
      have hs := (hv y (by simp)).1
      obtain ⟨z, p, r1, r2, r3⟩ := multi_lives argsort has (GenKind.ops memE memZ) m N M ha.pos ha.series ha.query buffer Δ (streamValue π m (SAct.gens as))
        (y.start.s.length - N) (y.start.q.length - M.getD N) l y x.1 hf.proper (by
          intro z hz
          obtain ⟨e1, e2⟩ := (hi z hz).1
          exact ⟨⟨e1, fun id hid x y => streamDist_value π m _ id (e2 id hid) x y⟩, (hv z hz).2⟩) hk
        ⟨le_rfl, le_rfl, fun h => ⟨hs h, by rw [hs h, h]; rfl⟩⟩ (.inl ⟨hf.new, by omega, by omega⟩)
      exact ⟨y, z, p, rfl, r1, r2, r3⟩
  obtain ⟨cons, r1, r2⟩ := C90_stream_session_partial memE hmemE memZ hmemZ ops rfl π m N M nDim buffer as bs ha hacts hcu (by
    rw [streamLives_spans]
    intro x hx
    obtain ⟨z, hz, rfl⟩ := List.mem_map.mp hx
    obtain ⟨_, _, p, -, -, g, -⟩ := hlast z hz
    exact ⟨_, g⟩)
  refine ⟨cons, r1, ?_⟩
  rw [streamLives_spans, List.forall₂_map_left_iff, forall₂_iff_getElem?] at r2
  rw [forall₂_iff_getElem?]
  refine ⟨r2.1, fun i x c hx hc => ?_⟩
  obtain ⟨g1, g2⟩ := r2.2 i x c hx hc
  obtain ⟨y, z, p, g3, g4, g6, g7⟩ := hlast x (List.mem_of_getElem? hx)
  dsimp only at g1 g2
  rw [g6] at g2
  refine ⟨y, z, g3, g4, ?_, by rw [← Except.ok.inj g2]; exact g7⟩
  rw [g1, Life.ids, List.getLast?_map, g4]
  rfl

/-! ### Concrete cases -/

instance : DecidableEq (List (List (Option (Fl ℚ × Int × List Int)))) :=
  haveI : DecidableEq (Option (Fl ℚ × Int × List Int)) := inferInstance
  inferInstance

/-- Squared Euclidean distances of exact data, multidimensional profiles that are added at any time. Shown are for each object the left, right and merged entries of all rows. -/
def exLateMulti (m N M nDim : Nat) (bs : List (Act Unit (MDObj ℚ) (Streaming.Op ℚ))) : Except PyErr (List (List (Option (Fl ℚ × Int × List Int)))) :=
  (streamSession (MDMP.ops exArgsort (Eucl.genOps zeroMem (fun x : ℚ => x))) (fun _ : Unit => Eucl.streaming zeroMem 2) m N (some (M : Int)) nDim none bs).map fun l => l.map fun c =>
    match c.1.st with
    | none => []
    | some p => (List.range p.nDim).flatMap fun k => (List.range (N + 1 - m)).flatMap fun i => [p.left.read k i, p.right.read k i, p.readMerged k i]

/-- The data of `C98_late_wrong` with one generator, windows of three points: the profile that was added at the beginning and the one that was added when all points had been
appended agree about the values, but not about the positions and the sides. -/
theorem C101_late_wrong : exLateMulti 1 3 3 1 [.generator () 0, .consumer (exMDObj ℚ) [0], .call [0] (.series (.d2 [[.fin 1, .fin 5, .fin 2, .fin 8]] 4)),
      .call [0] (.query (.d2 [[.fin 9, .fin 9, .fin 4, .fin 5, .fin 3]] 5)), .consumer (exMDObj ℚ) [0], .call [0] (.columns (fun _ => false) (.int 3))] =
    .ok [[some (.pinf, -1, [-1]), some (.fin 0, 3, [0]), some (.fin 0, 3, [0]), some (.fin 4, 2, [0]), some (.fin 1, 4, [0]), some (.fin 1, 4, [0]),
        some (.fin 9, 3, [0]), some (.fin 25, 4, [0]), some (.fin 9, 3, [0])],
      [some (.fin 1, 0, [0]), some (.fin 0, 1, [0]), some (.fin 0, 1, [0]), some (.fin 4, 0, [0]), some (.fin 1, 2, [0]), some (.fin 1, 2, [0]),
        some (.fin 9, 1, [0]), some (.pinf, -1, [-1]), some (.fin 9, 1, [0])]] := by
  decide +kernel

/-- Two channels. The first object is added at the beginning, for the second generator only, and again for both when one point of the series and two of the query have left the
windows: it goes on counting from the beginning. The second object is added when the first column has been calculated, for the generators in the other order. -/
example : exLateMulti 1 2 2 2 [.generator () 0, .generator () 1, .consumer (exMDObj ℚ) [1], .call [1] (.series (.d2 [[.fin 1, .fin 5, .fin 2], [.fin 0, .fin 7, .fin 4]] 3)),
      .call [1] (.query (.d2 [[.fin 9, .fin 4, .fin 5, .fin 3], [.fin 1, .fin 6, .fin 2, .fin 8]] 4)), .again 0 [0, 1], .call [0, 1] (.columns (fun _ => false) (.int 1)),
      .consumer (exMDObj ℚ) [1, 0], .call [0, 1] (.query (.d2 [[.fin 6], [.fin 6]] 1)), .call [0, 1] (.columns (fun _ => false) (.int 2))] =
    .ok [[some (.pinf, -1, [-1]), some (.fin 0, 2, [0]), some (.fin 0, 2, [0]), some (.pinf, -1, [-1]), some (.fin 1, 3, [0]), some (.fin 1, 3, [0]),
        some (.pinf, -1, [-1, -1]), some (.fin (5 / 2), 3, [1, 0]), some (.fin (5 / 2), 3, [1, 0]), some (.pinf, -1, [-1, -1]), some (.fin (17 / 2), 3, [0, 1]),
        some (.fin (17 / 2), 3, [0, 1])],
      [some (.pinf, -1, [-1]), some (.pinf, -1, [-1]), some (.pinf, -1, [-1]), some (.fin 1, 1, [1]), some (.fin 4, 2, [0]), some (.fin 1, 1, [1]),
        some (.pinf, -1, [-1, -1]), some (.pinf, -1, [-1, -1]), some (.pinf, -1, [-1, -1]), some (.fin (17 / 2), 1, [1, 0]), some (.fin 10, 2, [0, 1]),
        some (.fin (17 / 2), 1, [1, 0])]] := by
  decide +kernel

/-- The acts of `exLateActs`, but the consumers are added for several generators: the first one first for one and then for three, the second for two, the last for two. -/
noncomputable def exMultiActs {C : Type} (c : C) : List (SAct (GenKind × Nat) C (MOp (ℤ × ℤ))) :=
  [.generator (.euclidean 2, 1), .consumer c [0], .call (.columns 1), .generator (.znorm 0 (3 / 2), 0), .generator (.znorm (1 / 10) 1, 1),
   .call (.series [(1, 2), (5, 0), (2, 7), (8, 1), (3, 3)]), .call (.query [(4, 1), (4, 6), (7, 2)]), .consumer c [2, 0], .call (.columns 1), .again 0 [1, 2, 0],
   .call (.series [(9, 9)]), .call (.columns 3), .call (.query [(0, 5)]), .call (.columns 3), .generator (.euclidean 1, 0),
   .call (.query [(1, 1), (2, 0), (8, 3)]), .call (.series [(4, 4), (6, 1), (2, 2), (7, 5)]), .consumer c [3, 1], .call (.columns 2)]

noncomputable def exMultiActCalls {C : Type} (c : C) : List (Act GenKind C (Streaming.Op ℝ)) :=
  [.generator (.euclidean 2) 1, .consumer c [0], .call [0] (.columns (fun _ => false) (.float (.fin (1 / 3)))), .generator (.znorm 0 (3 / 2)) 0,
   .generator (.znorm (1 / 10) 1) 1, .call [0] (.series (.d2 [[.fin 1, .fin 5, .fin 2, .fin 8, .fin 3], [.fin 2, .fin 0, .fin 7, .fin 1, .fin 3]] 5)),
   .call [0] (.query (.d2 [[.fin 4, .fin 4, .fin 7], [.fin 1, .fin 6, .fin 2]] 3)), .consumer c [2, 0], .call [0, 2] (.columns (fun c => c == 1) (.float (.fin 1))),
   .again 0 [1, 2, 0], .call [0, 1, 2] (.series (.d1 [.fin 9, .fin 9])), .call [0, 1, 2] (.columns (fun _ => false) (.int 3)), .call [2, 1, 0] (.query (.d1 [.fin 0, .fin 5])),
   .call [1, 0, 2] (.columns (fun _ => true) (.int 3)), .generator (.euclidean 1) 0, .call [1, 2, 0] (.query (.d2 [[.fin 1, .fin 2, .fin 8], [.fin 1, .fin 0, .fin 3]] 3)),
   .call [1, 0, 2] (.series (.d2 [[.fin 4, .fin 6, .fin 2, .fin 7], [.fin 4, .fin 1, .fin 2, .fin 5]] 4)), .consumer c [3, 1],
   .call [3, 1, 0, 2] (.columns (fun _ => false) (.int 2))]

theorem exMultiActs_args {C : Type} (c : C) : StreamArgs 2 4 (some 3) 2 none (SAct.gens (exMultiActs c)) [] [] := exLateActs_args c

theorem exMultiActs_calls {C : Type} (c : C) : AreActs (fun u op => u.step 2 4 (some 3) op) (IsStreamCall exChan 2 4 (some 3) 2 (SAct.gens (exMultiActs c)))
    (fun _ => True) 0 [] MSt.init (exMultiActs c) (exMultiActCalls c) := by
  obtain ⟨-, -, -, -, -, c1, -, -, -, -, -, -, -, -, -, c2, -, -, -, c3, -, -, -, -, -, c4, -, -, -, -, -, -, c5, -, -, -, c6, -, -, -, c7, -, -, -, c8, -, -, -, -, -, -,
    c9, -, -, -, c10, -, -, -, -, -, c11, -⟩ := exLateActs_calls c
  refine ⟨trivial, rfl, rfl, rfl, rfl, c1, by simp, by simp, by simp, trivial, rfl, rfl, trivial, rfl, rfl, c2, by simp, by simp, by simp, c3, by simp, by simp, by simp,
    rfl, rfl, c4, by simp, ?_, by simp, rfl, rfl, by simp, c5, by simp, ?_, by simp, c6, by simp, ?_, by simp, c7, by simp, ?_, by simp, c8, by simp, ?_, by simp,
    trivial, rfl, rfl, c9, by simp, ?_, by simp, c10, by simp, ?_, by simp, rfl, rfl, c11, by simp, ?_, by simp, trivial⟩
  all_goals
    intro id
    simp
    try omega

theorem exMultiActs_filled {C : Type} (c : C) : CaughtUp 2 4 (some 3) [] MSt.init (exMultiActs c) := by
  simp [CaughtUp, exMultiActs, Filled, MSt.step, MSt.init]

example : ∃ a b d, streamSession (MDMP.ops exArgsort (GenKind.ops exStreamCase.memE exStreamCase.memZ)) (fun k => k.streaming exStreamCase.memE exStreamCase.memZ) 2 4 (some 3) 2 none
    (exMultiActCalls (exMDObj ℝ)) = .ok [(a, [1, 2, 0]), (b, [2, 0]), (d, [3, 1])] := by
  have hok := exStreamCase_ok (idss := [[0], [2]]) (by simp) (by simp) (by simp)
  obtain ⟨cons, h1, h2⟩ := C101_late_multi_partial exStreamCase.memE hok.memE exStreamCase.memZ hok.memZ exArgsort exArgsort_ok exChan 2 4 (some 3) 2 none
    (exMultiActs (exMDObj ℝ)) (exMultiActCalls (exMDObj ℝ)) (exMultiActs_args _) (exMultiActs_calls _) (exMultiActs_filled _)
    (by simp [exMultiActs, SAct.Adds, SAct.gens]) (by
      intro c' ids h
      simp [exMultiActs] at h
      rcases h with ⟨rfl, -⟩ | ⟨rfl, -⟩ | ⟨rfl, -⟩ <;> exact exMDObj_new ℝ)
  obtain ⟨⟨a, ia⟩, l, ⟨_, y, -, e1, e2, -⟩, h3, rfl⟩ := List.forall₂_cons_left_iff.mp h2
  obtain ⟨⟨b, ib⟩, l, ⟨_, z, -, f1, f2, -⟩, h4, rfl⟩ := List.forall₂_cons_left_iff.mp h3
  obtain ⟨⟨d, id⟩, l, ⟨_, w, -, g1, g2, -⟩, h5, rfl⟩ := List.forall₂_cons_left_iff.mp h4
  obtain rfl := List.forall₂_nil_left_iff.mp h5
  cases Option.some.inj e1
  cases Option.some.inj f1
  cases Option.some.inj g1
  dsimp only at e2 f2 g2
  subst e2 f2 g2
  exact ⟨a, b, d, h1⟩

end Verif
