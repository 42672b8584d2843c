import Verif.Model.ReservoirConsumer
import Verif.Lemmas.ReservoirBatch
import Verif.Lemmas.CaseExamples

/-!
# C92: `MatrixProfileLRReservoir` at any moment of a batch calculation
-/

namespace Verif
open Spec
variable {α G K : Type}

/-- The calls of a history reach the tree of states. -/
theorem Reservoir.feed_eq [LinearOrder K] (gops : GenOps G K) {h w : Nat} (ds : List (Delivery K)) (hv : ∀ d ∈ ds, d.Valid h w ∧ d.Plain) :
    ∀ {t : Rnd (Reservoir K)} {T : Bool → Nat → Ties K}, Reservoir.Law t h w T →
      feed (Reservoir.ops gops) t (ds.map Delivery.event) = .ok (t.bind fun p => p.runAll ds) := by
  induction ds with
  | nil =>
    intro t T hl
    show Except.ok t = .ok (t.bind Rnd.pure)
    rw [Rnd.bind_pure]
  | cons d ds ih =>
    intro t T hl
    have hd := hl.deliver d (hv d (by simp)).1 (hv d (by simp)).2
    have e : (Delivery.event d).apply (Reservoir.ops gops) t = .ok (t.bind fun p => p.deliver d) := by
      have hp := (hv d (by simp)).2
      cases d with
      | diag d v => exact if_pos hd.sure
      | column c v => exact if_pos hd.sure
      | shiftSeries n => exact hp.elim
      | shiftQuery n => exact hp.elim
    show (do feed _ (← d.event.apply (Reservoir.ops gops) t) (ds.map Delivery.event)) = _
    rw [e]
    refine (ih (fun d hd => hv d (by simp [hd])) hd).trans ?_
    rw [Rnd.bind_assoc]
    rfl

/-- How often the pair (`r`, `c`) was delivered since column `c` was calculated for the last time. -/
def BatchCase.delivered (B : BatchCase α) (r c : Nat) : Nat := BSt.init.times B.query.isNone B.order r c B.us 0

open Classical in
/-- The weight of row `r` among the rows at distance `y` of column `c`: how often the pair was delivered since column `c` was calculated for the last time. -/
noncomputable def BatchCase.weight (B : BatchCase α) (id : Nat) (y : ℝ) (c r : Nat) : Nat := if B.done r c ∧ B.value id r c = y then B.delivered r c else 0

/-- The rows of one side of column `c`: `left` those up to the column, the others right. -/
def BatchCase.rowsOf (B : BatchCase α) (left : Bool) (c : Nat) : Finset Nat := (Finset.range B.h).filter fun r => decide (r ≤ c) = left

/-- What a consumer of generator `id` has drawn: `t` is the tree of its possible states. -/
structure BatchCase.Drawn (B : BatchCase α) (id : Nat) (t : Rnd (Reservoir ℝ)) : Prop where
  /-- Every outcome has all positions. -/
  sizes : t.All fun p => p.left.length = B.w ∧ p.right.length = B.w
  /-- In every outcome the value is the smallest distance calculated on that side and the index a row that has it. -/
  profile : t.All fun p => ∀ left, ∀ c < B.w, ∀ e, (p.side left)[c]? = some e →
    (∀ r ∈ B.rowsOf left c, B.done r c → e.mp ≤ .fin (B.value id r c)) ∧
    (e.mp = .pinf ∨ ∃ r ∈ B.rowsOf left c, B.done r c ∧ e.mp = .fin (B.value id r c) ∧ e.idx = r)
  /-- Without any distance: no index if the column was not calculated, else one of the rows, which are all in the trivial match band. -/
  nothing : t.All fun p => ∀ left, ∀ c < B.w, ∀ e, (p.side left)[c]? = some e → e.mp = .pinf →
    (¬ (B.column c ∧ (B.rowsOf left c).Nonempty) → e.idx = -1 ∧ e.num = 0) ∧
    (B.column c → (B.rowsOf left c).Nonempty → (∃ r ∈ B.rowsOf left c, e.idx = r) ∧ e.num = (B.rowsOf left c).card)
  /-- The number of matches counts deliveries. -/
  num : t.All fun p => ∀ left, ∀ c < B.w, ∀ e, (p.side left)[c]? = some e → ∀ y, e.mp = .fin y → e.num = ∑ r ∈ B.rowsOf left c, B.weight id y c r
  /-- The rows with the smallest distance are drawn in proportion to their weights. -/
  index : ∀ left, ∀ c < B.w, ∀ y, (∃ r ∈ B.rowsOf left c, B.done r c ∧ B.value id r c = y) → (∀ r ∈ B.rowsOf left c, B.done r c → y ≤ B.value id r c) →
    ∀ r ∈ B.rowsOf left c, (t.Pr fun p => ∃ e, (p.side left)[c]? = some e ∧ e.idx = r) = B.weight id y c r / ((∑ r ∈ B.rowsOf left c, B.weight id y c r : Nat) : ℚ)
  /-- The same for `profile_index()`, over both sides. -/
  merged : ∀ c < B.w, ∀ y, (∃ r < B.h, B.done r c ∧ B.value id r c = y) → (∀ r < B.h, B.done r c → y ≤ B.value id r c) →
    ∀ r < B.h, ((t.bind Reservoir.profileIndex).Pr fun l => l[c]? = some (r : Int)) = B.weight id y c r / ((∑ r ∈ Finset.range B.h, B.weight id y c r : Nat) : ℚ)

/-- Number of elements, row by row. -/
theorem countP_by_row {h : Nat} (S : Finset Nat) (hS : ∀ r ∈ S, r < h) (sel : List (Fl K × Int)) (P : Fl K → Bool) (hsel : ∀ x ∈ sel, ∃ r ∈ S, x.2 = (r : Int)) :
    sel.countP (fun x => P x.1) = ∑ r ∈ S, sel.countP fun x => P x.1 && decide (x.2 = (r : Int)) := by
  induction sel with
  | nil => simp
  | cons x sel ih =>
    obtain ⟨r0, h0, e⟩ := hsel x (by simp)
    simp only [List.countP_cons, Finset.sum_add_distrib]
    rw [ih fun x hx => hsel x (by simp [hx])]
    congr 1
    rw [Finset.sum_eq_single r0]
    · simp [e]
    · intro r _ hne
      rw [if_neg]
      rw [e]
      simp only [Bool.and_eq_true, decide_eq_true_eq, not_and]
      intro _ h
      exact hne (by exact_mod_cast h.symm)
    · exact fun h => absurd h0 h

/-- A `MatrixProfileLRReservoir` that receives the calls of the calculation. -/
theorem BatchCase.Any.reservoir_fed {B : BatchCase α} {idss : List (List Nat)} (hB : B.Any idss) {id : Nat} (hlt : id < B.kinds.length) (gops : GenOps G ℝ) :
    ∃ p t, (Reservoir.ops gops).initialise Reservoir.new 1 (B.h : Int) (B.w : Int) = .ok p ∧ feed (Reservoir.ops gops) p (B.events [id]) = .ok t ∧ B.Drawn id t := by
  obtain ⟨p, h1, h2⟩ := Reservoir.Law.init (K := ℝ) B.h B.w
  have hcells := hB.cells hlt
  have hplain : ∀ d ∈ B.dels id, d.Valid B.h B.w ∧ d.Plain := by
    intro d hm
    refine ⟨hcells.valid d hm, ?_⟩
    have := hcells.of d hm
    cases d with
    | diag d v => trivial
    | column c v =>
      have hv : v = (List.range B.h).map fun r => B.masked id r c := this
      show Fl.nan ∉ v
      rw [hv, List.mem_map]
      rintro ⟨r, -, h⟩
      unfold BatchCase.masked at h
      split at h <;> cases h
    | _ => exact this.elim
  have hl := h2.runAll (B.dels id) hplain
  refine ⟨.pure p, (Rnd.pure p).bind fun p => p.runAll (B.dels id), ?_, ?_, ?_⟩
  · show Reservoir.accept (Rnd.lift (Reservoir.initialise (B.h : Int) (B.w : Int))) = _
    rw [h1]
    exact if_pos trivial
  · rw [BatchCase.events_single, Reservoir.feed_eq gops _ hplain h2]
  set t := (Rnd.pure p).bind fun p => p.runAll (B.dels id) with ht
  set T : Bool → Nat → Ties ℝ := fun left c => (B.dels id).foldl (Ties.step c left) Ties.init with hT
  set S : Bool → Nat → List (Fl ℝ × Int) := fun left c => (B.dels id).foldl (selStep c left) [] with hS
  have hof : ∀ left c, (T left c).Of (S left c) := fun left c => Ties.Of.init.steps c left _
  have hsel : ∀ left c, ∀ x ∈ S left c, ∃ r : Nat, r < B.h ∧ x.2 = r ∧ decide (r ≤ c) = left ∧ x.1 = B.masked id r c := fun left c =>
    selSteps_of c left _ hcells.valid hcells.of [] (by simp)
  have hself : B.query.isNone = true → B.q = B.s := by
    intro h
    unfold BatchCase.q
    rw [Option.isNone_iff_eq_none.mp h]; rfl
  have hcnt : ∀ r < B.h, ∀ c < B.w, (S (decide (r ≤ c)) c).countP (fun x => decide (x.2 = (r : Int))) = B.delivered r c := fun r hr c hc =>
    times_ok B.m B.query.isNone B.b (batchBuffer_ge hB.args).1 B.order hB.order_ok.2 (streamDist B.π B.m B.kinds id) B.s B.q hB.args.series
      (batchQuery_le hB.args) hB.order_ok.1 hself (batchBuffer_ge hB.args).2 (fun _ a b => streamDist_symm B.π B.m B.kinds id a b) hr hc B.us BSt.init []
  have hpos : ∀ {r c}, B.done r c → 0 < B.delivered r c := fun {r c} hd => (times_of_pos B.us BSt.init 0).2.1 hd
  have hdone : ∀ {r c}, 0 < B.delivered r c → B.done r c ∨ ((r : Int) - c ≤ B.b ∧ (c : Int) - r ≤ B.b) := fun {r c} h =>
    ((times_of_pos B.us BSt.init 0).2.2 h).resolve_left (lt_irrefl _)
  have hrow : ∀ left c r, r ∈ B.rowsOf left c ↔ r < B.h ∧ decide (r ≤ c) = left := by
    intro left c r
    unfold BatchCase.rowsOf
    rw [Finset.mem_filter, Finset.mem_range]
  -- a delivered distance is among the values
  have hmem : ∀ left, ∀ c < B.w, ∀ r ∈ B.rowsOf left c, B.done r c → (.fin (B.value id r c), (r : Int)) ∈ S left c := by
    intro left c hc r hr hd
    obtain ⟨h3, h4⟩ := (hrow _ _ _).mp hr
    have := hpos hd
    rw [← hcnt r h3 c hc, h4, List.countP_pos_iff] at this
    obtain ⟨x, hx, hxr⟩ := this
    rw [decide_eq_true_eq] at hxr
    obtain ⟨r', -, e1, -, e2⟩ := hsel left c x hx
    obtain rfl : r = r' := by rw [hxr] at e1; exact_mod_cast e1
    rw [hB.masked_done hd] at e2
    rw [← e2, ← hxr]
    exact hx
  -- a finite value is that of a delivered distance
  have hfar : ∀ left, ∀ c < B.w, ∀ x ∈ S left c, x.1 = .pinf ∨ ∃ r ∈ B.rowsOf left c, B.done r c ∧ x = (.fin (B.value id r c), (r : Int)) := by
    rintro left c hc ⟨v, i⟩ hx
    obtain ⟨r, h3, h4, h5, h6⟩ := hsel left c _ hx
    simp only at h4 h6
    by_cases hb : (r : Int) - c ≤ B.b ∧ (c : Int) - r ≤ B.b
    · left
      show v = _
      rw [h6, BatchCase.masked, if_pos hb]
    · right
      have : 0 < B.delivered r c := by
        rw [← hcnt r h3 c hc, h5, List.countP_pos_iff]
        exact ⟨_, hx, by simpa using h4⟩
      have hd := (hdone this).resolve_right hb
      exact ⟨r, (hrow _ _ _).mpr ⟨h3, h5⟩, hd, by rw [h6, h4, hB.masked_done hd]⟩
  have hlow : ∀ left, ∀ c < B.w, ∀ r ∈ B.rowsOf left c, B.done r c → (T left c).v ≤ .fin (B.value id r c) := by
    intro left c hc r hr hd
    rw [(hof left c).v]
    rcases (best_isBest (S left c)).lower _ (hmem left c hc r hr hd) with h | h
    · cases h
    · exact h
  have hnan : ∀ left c, (T left c).v ≠ .nan := fun left c => by
    rw [(hof left c).v]; exact (best_isBest _).number
  have hatt : ∀ left, ∀ c < B.w, (T left c).v = .pinf ∨ ∃ r ∈ B.rowsOf left c, B.done r c ∧ (T left c).v = .fin (B.value id r c) := by
    intro left c hc
    rw [(hof left c).v]
    rcases (best_isBest (S left c)).attained with ⟨e, -⟩ | ⟨h3, pre, post, e, -⟩
    · exact .inl e
    · rcases hfar left c hc _ (best_mem e) with h | ⟨r, a1, a2, a3⟩
      · exact .inl h
      · exact .inr ⟨r, a1, a2, congrArg Prod.fst a3⟩
  -- the weights
  have hw1 : ∀ left, ∀ c < B.w, ∀ y, ∀ r ∈ B.rowsOf left c,
      (S left c).countP (fun x => decide (x.1 = .fin y) && decide (x.2 = (r : Int))) = B.weight id y c r := by
    intro left c hc y r hr
    obtain ⟨h3, h4⟩ := (hrow _ _ _).mp hr
    unfold BatchCase.weight
    by_cases hd : B.done r c ∧ B.value id r c = y
    · rw [if_pos hd, ← hcnt r h3 c hc, h4]
      apply List.countP_congr
      intro x hx
      rw [Bool.and_eq_true, decide_eq_true_eq, decide_eq_true_eq]
      refine ⟨And.right, fun h => ⟨?_, h⟩⟩
      obtain ⟨r', -, e1, -, e2⟩ := hsel left c x hx
      obtain rfl : r = r' := by rw [h] at e1; exact_mod_cast e1
      rw [e2, hB.masked_done hd.1, hd.2]
    · rw [if_neg hd, List.countP_eq_zero]
      intro x hx h
      rw [Bool.and_eq_true, decide_eq_true_eq, decide_eq_true_eq] at h
      rcases hfar left c hc x hx with e | ⟨r', a1, a2, a3⟩
      · rw [h.1] at e; cases e
      · rw [a3] at h
        simp only at h
        obtain rfl : r' = r := by exact_mod_cast h.2
        exact hd ⟨a2, Fl.fin.inj h.1⟩
  have hw2 : ∀ left, ∀ c < B.w, ∀ y, (S left c).countP (fun x => decide (x.1 = .fin y)) = ∑ r ∈ B.rowsOf left c, B.weight id y c r := by
    intro left c hc y
    rw [countP_by_row (h := B.h) (B.rowsOf left c) (fun r hr => ((hrow _ _ _).mp hr).1) (S left c) (fun v => decide (v = .fin y)) fun x hx => by
      obtain ⟨r, e1, e2, e3, -⟩ := hsel left c x hx
      exact ⟨r, (hrow _ _ _).mpr ⟨e1, e3⟩, e2⟩]
    exact Finset.sum_congr rfl fun r hr => hw1 left c hc y r hr
  have hrows : ∀ left c, ∀ y, (T left c).v = .fin y → (T left c).rows.length = (S left c).countP (fun x => decide (x.1 = .fin y)) ∧
      ∀ i, (T left c).rows.countP (fun j => decide (j = i)) = (S left c).countP fun x => decide (x.1 = .fin y) && decide (x.2 = i) := by
    intro left c y hy
    rw [(hof left c).fin y hy, hy]
    refine ⟨by rw [List.length_map, List.countP_eq_length_filter], fun i => ?_⟩
    rw [List.countP_map, List.countP_filter]
    apply List.countP_congr
    intro x _
    simp [and_comm]
  refine ⟨?_, ?_, ?_, ?_, ?_, ?_⟩
  · exact hl.all.mono fun p hp => ⟨hp.1.left, hp.1.right⟩
  · refine hl.all.mono fun p hp left c hc e he => ?_
    obtain ⟨e1, -, e3⟩ := hp.2 left c e he
    refine ⟨fun r hr hd => by rw [e1]; exact hlow left c hc r hr hd, ?_⟩
    rw [e1]
    rcases hatt left c hc with h | ⟨r, a1, a2, a3⟩
    · exact .inl h
    · right
      have e3' : e.idx ∈ (T left c).rows := e3
      rw [(hof left c).fin _ a3, List.mem_map] at e3'
      obtain ⟨x, hx, hxi⟩ := e3'
      obtain ⟨hx1, hx2⟩ := List.mem_filter.mp hx
      rw [decide_eq_true_eq] at hx2
      rcases hfar left c hc x hx1 with h | ⟨r', b1, b2, b3⟩
      · rw [hx2, a3] at h; cases h
      · refine ⟨r', b1, b2, ?_, ?_⟩
        · show (T left c).v = _
          rw [← hx2, b3]
        · rw [← hxi, b3]
  · refine hl.all.mono fun p hp left c hc e he hinf => ?_
    obtain ⟨e1, e2, e3⟩ := hp.2 left c e he
    have hinf' : (T left c).v = .pinf := e1.symm.trans hinf
    have hof0 : (Delivery.column c ((List.range B.h).map fun r => B.masked id r c)).Of (B.masked id) B.h := rfl
    have hval0 : (Delivery.column c ((List.range B.h).map fun r => B.masked id r c)).Valid B.h B.w := ⟨hc, by simp [hB.h_pos.ne'], by simp⟩
    set E := entriesFor ((Delivery.column c ((List.range B.h).map fun r => B.masked id r c)).cells 0 0) (c : Int) left with hE
    have hcell : ∀ x ∈ E, ∃ r ∈ B.rowsOf left c, x.2 = (r : Int) := fun x hx => by
      obtain ⟨r, f1, f2, f3, -⟩ := cell_of hval0 hof0 c left x hx
      exact ⟨r, (hrow _ _ _).mpr ⟨f1, f3⟩, f2⟩
    have hnn : ∀ x ∈ E, x.1 ≠ .nan := fun x hx => by
      obtain ⟨r, -, -, -, f4⟩ := cell_of hval0 hof0 c left x hx
      rw [f4, BatchCase.masked]
      split <;> simp
    have hlen : E.length = (B.rowsOf left c).card := by
      have := countP_by_row (h := B.h) (B.rowsOf left c) (fun r hr => ((hrow _ _ _).mp hr).1) E (fun _ => true) hcell
      rw [List.countP_true] at this
      rw [this, Finset.card_eq_sum_ones]
      refine Finset.sum_congr rfl fun r hr => ?_
      obtain ⟨f1, f2⟩ := (hrow _ _ _).mp hr
      have := (column_count (B.masked id) (c := c) f1).2
      rw [f2] at this
      simpa using this
    have hne : E ≠ [] ↔ (B.rowsOf left c).Nonempty := by
      rw [← Finset.card_pos, ← hlen, List.length_pos_iff]
    have hcol : (∃ vals, .column c vals ∈ B.dels id) ↔ B.column c := by
      constructor
      · rintro ⟨vals, hv⟩
        rcases mem_allDeliveries hv with ⟨k, -, h | ⟨-, h⟩⟩ | ⟨c', a, e, f1, f2, f3, f4⟩
        · cases h
        · cases h
        · cases f4
          exact ⟨a, e, f1, f2, f3⟩
      · rintro ⟨a, e, f1, f2, f3⟩
        exact ⟨_, allDeliveries_column f1 f2 f3⟩
    have := Ties.Empty.steps c left E hnn (B.dels id) (fun vals hv => by
      have : vals = _ := hcells.of _ hv
      rw [this]) (T := Ties.init) (R := [-1]) (n := 0) (fun _ => ⟨rfl, rfl⟩) hinf'
    have e3' : e.idx ∈ (T left c).rows := e3
    have e2' : e.num = (T left c).n := e2
    have g1 := this.1
    have g2 := this.2
    refine ⟨fun hno => ?_, fun h3 h4 => ?_⟩
    · rw [if_neg (by rw [hne, hcol]; tauto)] at g1 g2
      rw [show (T left c).rows = [-1] from g1] at e3'
      exact ⟨by simpa using e3', e2'.trans g2⟩
    · rw [if_pos ⟨hne.mpr h4, hcol.mpr h3⟩] at g1 g2
      refine ⟨?_, (e2'.trans g2).trans hlen⟩
      rw [show (T left c).rows = E.map Prod.snd from g1, List.mem_map] at e3'
      obtain ⟨x, hx, hxi⟩ := e3'
      obtain ⟨r, f1, f2⟩ := hcell x hx
      exact ⟨r, f1, by rw [← hxi, f2]⟩
  · refine hl.all.mono fun p hp left c hc e he y hy => ?_
    obtain ⟨e1, e2, -⟩ := hp.2 left c e he
    have hy' : (T left c).v = .fin y := e1.symm.trans hy
    rw [e2]
    show (T left c).n = _
    rw [(hl.ok left c).num y hy']
    exact ((hrows left c y hy').1).trans (hw2 left c hc y)
  · intro left c hc y hex hle r hr
    have hv : (T left c).v = .fin y := by
      obtain ⟨r0, a1, a2, a3⟩ := hex
      have h3 := hlow left c hc r0 a1 a2
      rcases hatt left c hc with h | ⟨r1, b1, b2, b3⟩
      · rw [h] at h3; exact absurd h3 (by simp)
      · have h4 := hle r1 b1 b2
        rw [b3, a3] at h3
        have h5 : B.value id r1 c ≤ y := by simpa using h3
        rw [b3, le_antisymm h5 h4]
    rw [Rnd.Pr_eq, hl.Pr_idx left c hc]
    obtain ⟨a1, a2⟩ := hrows left c y hv
    show (((T left c).rows.countP _ : Nat) : ℚ) / ((T left c).rows.length : ℚ) = _
    rw [a1, a2, hw1 left c hc y r hr, hw2 left c hc y]
  · intro c hc y hex hle r hr
    have hge : ∀ left, .fin y ≤ (T left c).v := by
      intro left
      rcases hatt left c hc with h | ⟨r1, b1, b2, b3⟩
      · rw [h]; exact (Fl.le_pinf_iff _).mpr (by simp)
      · rw [b3]
        simpa using hle r1 ((hrow _ _ _).mp b1).1 b2
    have hor : ∃ left, (T left c).v = .fin y := by
      obtain ⟨r0, a1, a2, a3⟩ := hex
      refine ⟨decide (r0 ≤ c), le_antisymm ?_ (hge _)⟩
      rw [← a3]
      exact hlow _ c hc r0 ((hrow _ _ _).mpr ⟨a1, rfl⟩) a2
    have hnone : ∀ left, (T left c).v ≠ .fin y → ∀ x ∈ S left c, x.1 ≠ .fin y := by
      intro left hne x hx he
      rcases hfar left c hc x hx with h | ⟨r1, b1, b2, b3⟩
      · rw [he] at h; cases h
      · have h3 := hlow left c hc r1 b1 b2
        rw [b3] at he
        simp only at he
        rw [he] at h3
        exact hne (le_antisymm h3 (hge left))
    have := hl.merged c hc y (fun left => hnan left c) hge hor
      (fun left i => (S left c).countP fun x => decide (x.1 = .fin y) && decide (x.2 = i)) (fun left => (S left c).countP fun x => decide (x.1 = .fin y))
      (fun left hv => ⟨(hrows left c y hv).1.symm, fun i => ((hrows left c y hv).2 i).symm⟩)
      (fun left hv => ⟨List.countP_eq_zero.mpr fun x hx h => hnone left hv x hx (of_decide_eq_true h),
        fun i => List.countP_eq_zero.mpr fun x hx h => hnone left hv x hx (of_decide_eq_true (Bool.and_eq_true_iff.mp h).1)⟩) r
    rw [this]
    have hoff : ∀ left, decide (r ≤ c) ≠ left → (S left c).countP (fun x => decide (x.1 = .fin y) && decide (x.2 = (r : Int))) = 0 := by
      intro left hne
      rw [List.countP_eq_zero]
      intro x hx h
      rw [Bool.and_eq_true, decide_eq_true_eq, decide_eq_true_eq] at h
      obtain ⟨r', -, e1, e2, -⟩ := hsel left c x hx
      obtain rfl : r = r' := by rw [h.2] at e1; exact_mod_cast e1
      exact hne e2
    have hon := hw1 (decide (r ≤ c)) c hc y r ((hrow _ _ _).mpr ⟨hr, rfl⟩)
    congr 1
    · norm_cast
      cases hside : decide (r ≤ c) with
      | true => rw [hside] at hon; rw [hon, hoff false (by rw [hside]; simp)]; rfl
      | false => rw [hside] at hon; rw [hon, hoff true (by rw [hside]; simp)]; omega
    · norm_cast
      rw [hw2 true c hc y, hw2 false c hc y, ← Finset.sum_filter_add_sum_filter_not (Finset.range B.h) fun r => decide (r ≤ c) = true]
      congr 1
      apply Finset.sum_congr _ fun _ _ => rfl
      unfold BatchCase.rowsOf
      apply Finset.filter_congr
      intro r _
      simp

/-- **C92.** `MatrixProfileLRReservoir` consumers of an `AnytimeCalculator` with any channels and generators, after any sequence of (partial, possibly
interrupted) `calculate_diagonals` and `calculate_columns` calls: no call raises, whatever is drawn, and the consumers are as `BatchCase.Drawn` says. Partial
for Euclidean generators when columns are calculated (`BatchCase.Ok.good`), for sides without any distance (`C92_band_index`), and for rows that are delivered
more than once (`C92_not_uniform`). -/
theorem C92_profile_partial (B : BatchCase α) (ids : List Nat) (hB : B.Ok (ids.map fun id => [id])) :
    ∃ cons', B.result Reservoir.ops (ids.map fun id => (Reservoir.new, [id])) = .ok cons' ∧ List.Forall₂ (fun id p => p.2 = [id] ∧ B.Drawn id p.1) ids cons' :=
  BatchCase.consumersOf (B := B) Reservoir.ops (fun _ => rfl) ids (fun id => (Reservoir.new, [id])) hB (fun id t => B.Drawn id t) fun id hid => by
    have hlt : id < B.kinds.length := hB.id_lt (List.mem_map_of_mem (f := fun id : Nat => [id]) hid) (by simp)
    obtain ⟨p, t, h⟩ := hB.toAny.reservoir_fed hlt (GenKind.ops B.memE B.memZ)
    exact ⟨p, t, h⟩

theorem times_columns {selfJoin : Bool} {order : List Int} {r c : Nat} (us : List BOp) (hus : ∀ op ∈ us, ∃ a e, op = .columns a e) :
    ∀ (u : BSt) (n : Nat), n ≤ 1 → u.times selfJoin order r c us n ≤ 1 := by
  induction us with
  | nil => exact fun u n h => h
  | cons op us ih =>
    intro u n h
    obtain ⟨a, e, rfl⟩ := hus op (by simp)
    exact ih (fun op h => hus op (by simp [h])) _ _ (by split <;> omega)

open Classical in
theorem times_diagonals {selfJoin : Bool} {order : List Int} (hnd : order.Nodup) (hpos : selfJoin = true → ∀ d ∈ order, 0 < d) {r c : Nat} (us : List BOp)
    (hus : ∀ op ∈ us, ∃ n, op = .diagonals n) : ∀ (u : BSt) (n : Nat),
      u.times selfJoin order r c us n ≤ n + if (c : Int) - r ∈ order.drop u.next ∨ (selfJoin = true ∧ (r : Int) - c ∈ order.drop u.next) then 1 else 0 := by
  induction us with
  | nil => exact fun u n => Nat.le_add_right _ _
  | cons op us ih =>
    intro u n
    obtain ⟨k, rfl⟩ := hus op (by simp)
    rw [BSt.times]
    refine (ih (fun op h => hus op (by simp [h])) _ _).trans ?_
    set xs := (order.take k).drop u.next with hxs
    have hstep : (u.step (.diagonals k)).next = max u.next k := rfl
    rw [hstep]
    have hmem : ∀ x ∈ xs, x ∈ order := fun x hx => List.mem_of_mem_take (List.mem_of_mem_drop hx)
    have hsub : ∀ x ∈ xs, x ∈ order.drop u.next := fun x hx => by
      rw [hxs, List.drop_take] at hx
      exact List.mem_of_mem_take hx
    have hlate : ∀ x ∈ order.drop (max u.next k), x ∈ order.drop u.next := fun x hx => by
      rw [show max u.next k = u.next + (max u.next k - u.next) by omega, ← List.drop_drop] at hx
      exact List.mem_of_mem_drop hx
    have hdisj : ∀ x ∈ xs, x ∉ order.drop (max u.next k) := by
      intro x hx hx'
      have h1 : x ∈ order.take k := List.mem_of_mem_drop hx
      have h2 : x ∈ order.drop k := by
        rw [show max u.next k = k + (max u.next k - k) by omega, ← List.drop_drop] at hx'
        exact List.mem_of_mem_drop hx'
      have h3 : ((order.take k) ++ order.drop k).Nodup := by rw [List.take_append_drop]; exact hnd
      exact (List.nodup_append.mp h3).2.2 x h1 x h2 rfl
    have hone : ∀ a ∈ order, ∀ b ∈ order, selfJoin = true → a = (c : Int) - r → b = (r : Int) - c → False := by
      intro a ha b hb hj e1 e2
      have := hpos hj a ha
      have := hpos hj b hb
      omega
    by_cases h1 : (c : Int) - r ∈ xs
    · have n2 : ¬ (selfJoin = true ∧ (r : Int) - c ∈ xs) := fun h => hone _ (hmem _ h1) _ (hmem _ h.2) h.1 rfl rfl
      have n3 : ¬ ((c : Int) - r ∈ order.drop (max u.next k) ∨ (selfJoin = true ∧ (r : Int) - c ∈ order.drop (max u.next k))) := by
        rintro (h | h)
        · exact hdisj _ h1 h
        · exact hone _ (hmem _ h1) _ (List.mem_of_mem_drop h.2) h.1 rfl rfl
      rw [if_pos h1, if_neg n2, if_neg n3, if_pos (.inl (hsub _ h1))]

    · rw [if_neg h1]
      by_cases h2 : selfJoin = true ∧ (r : Int) - c ∈ xs
      · have n3 : ¬ ((c : Int) - r ∈ order.drop (max u.next k) ∨ (selfJoin = true ∧ (r : Int) - c ∈ order.drop (max u.next k))) := by
          rintro (h | h)
          · exact hone _ (List.mem_of_mem_drop h) _ (hmem _ h2.2) h2.1 rfl rfl
          · exact hdisj _ h2.2 h.2
        rw [if_pos h2, if_neg n3, if_pos (.inr ⟨h2.1, hsub _ h2.2⟩)]

      · rw [if_neg h2]
        by_cases h3 : (c : Int) - r ∈ order.drop (max u.next k) ∨ (selfJoin = true ∧ (r : Int) - c ∈ order.drop (max u.next k))
        · rw [if_pos h3, if_pos (h3.imp (hlate _) fun h => ⟨h.1, hlate _ h.2⟩)]
        · rw [if_neg h3]
          omega

open Classical in
/-- The rows at distance `y` that were calculated. -/
noncomputable def BatchCase.tied (B : BatchCase α) (id : Nat) (y : ℝ) (c : Nat) : Finset Nat := (Finset.range B.h).filter fun r => B.done r c ∧ B.value id r c = y

/-- Each row with the smallest distance is drawn with the same probability, on each side and over both sides. -/
structure BatchCase.Uniform (B : BatchCase α) (id : Nat) (t : Rnd (Reservoir ℝ)) : Prop where
  num : t.All fun p => ∀ left, ∀ c < B.w, ∀ e, (p.side left)[c]? = some e → ∀ y, e.mp = .fin y → e.num = (B.tied id y c ∩ B.rowsOf left c).card
  index : ∀ left, ∀ c < B.w, ∀ y, (∀ r ∈ B.rowsOf left c, B.done r c → y ≤ B.value id r c) →
    ∀ r ∈ B.tied id y c ∩ B.rowsOf left c, (t.Pr fun p => ∃ e, (p.side left)[c]? = some e ∧ e.idx = r) = 1 / ((B.tied id y c ∩ B.rowsOf left c).card : ℚ)
  merged : ∀ c < B.w, ∀ y, (∀ r < B.h, B.done r c → y ≤ B.value id r c) →
    ∀ r ∈ B.tied id y c, ((t.bind Reservoir.profileIndex).Pr fun l => l[c]? = some (r : Int)) = 1 / ((B.tied id y c).card : ℚ)

theorem BatchCase.Drawn.uniform {B : BatchCase α} {id : Nat} {t : Rnd (Reservoir ℝ)} (h : B.Drawn id t) (h1 : ∀ r c, B.delivered r c ≤ 1) : B.Uniform id t := by
  classical
  have hw : ∀ y c r, B.weight id y c r = if B.done r c ∧ B.value id r c = y then 1 else 0 := by
    intro y c r
    unfold BatchCase.weight
    split
    · rename_i hd
      have : 0 < B.delivered r c := (times_of_pos B.us BSt.init 0).2.1 hd.1
      have := h1 r c
      omega
    · rfl
  have hsum : ∀ y c (S : Finset Nat), S ⊆ Finset.range B.h → ∑ r ∈ S, B.weight id y c r = (B.tied id y c ∩ S).card := by
    intro y c S hS
    rw [Finset.sum_congr rfl fun r _ => hw y c r, ← Finset.card_filter]
    congr 1
    ext r
    unfold BatchCase.tied
    simp only [Finset.mem_filter, Finset.mem_inter]
    constructor
    · rintro ⟨a, b⟩; exact ⟨⟨hS a, b⟩, a⟩
    · rintro ⟨⟨-, b⟩, a⟩; exact ⟨a, b⟩
  have hrows : ∀ left c, B.rowsOf left c ⊆ Finset.range B.h := fun left c => Finset.filter_subset _ _
  have htied : ∀ y c, B.tied id y c ∩ Finset.range B.h = B.tied id y c := fun y c => Finset.inter_eq_left.mpr (Finset.filter_subset _ _)
  have hmem : ∀ y c r, r ∈ B.tied id y c → r < B.h ∧ B.done r c ∧ B.value id r c = y := by
    intro y c r hr
    unfold BatchCase.tied at hr
    rw [Finset.mem_filter, Finset.mem_range] at hr
    exact hr
  refine ⟨?_, ?_, ?_⟩
  · exact h.num.mono fun p hp left c hc e he y hy => by rw [hp left c hc e he y hy, hsum y c _ (hrows left c)]
  · intro left c hc y hle r hr
    obtain ⟨a1, a2⟩ := Finset.mem_inter.mp hr
    obtain ⟨-, b2, b3⟩ := hmem y c r a1
    rw [h.index left c hc y ⟨r, a2, b2, b3⟩ hle r a2, hsum y c _ (hrows left c), hw, if_pos ⟨b2, b3⟩, Nat.cast_one]
  · intro c hc y hle r hr
    obtain ⟨b1, b2, b3⟩ := hmem y c r hr
    rw [h.merged c hc y ⟨r, b1, b2, b3⟩ hle r b1, hsum y c _ (Finset.Subset.refl _), htied, hw, if_pos ⟨b2, b3⟩, Nat.cast_one]

/-- **C92, diagonals only.** With a query, or with `trivial_match_buffer >= 0`, after any sequence of (partial, possibly interrupted) `calculate_diagonals`
calls: among the rows with the smallest calculated distance each is drawn with the same probability, and the number of matches is their number. -/
theorem C92_diagonals (B : BatchCase α) (ids : List Nat) (hB : B.Ok (ids.map fun id => [id])) (hus : ∀ op ∈ B.us, ∃ n, op = .diagonals n)
    (hb : B.query = none → 0 ≤ B.b) :
    ∃ cons', B.result Reservoir.ops (ids.map fun id => (Reservoir.new, [id])) = .ok cons' ∧
      List.Forall₂ (fun id p => p.2 = [id] ∧ B.Drawn id p.1 ∧ B.Uniform id p.1) ids cons' := by
  obtain ⟨cons', h1, h2⟩ := C92_profile_partial B ids hB
  have hpos : B.query.isNone = true → ∀ d ∈ B.order, 0 < d := by
    intro hn d hd
    have := ((batchOrder_ok hB.perm hB.args.series (fun e => (hB.args.bufferLen e).1) (batchQuery_le hB.args)).2.2 d).mp hd
    rw [if_pos hn] at this
    exact lt_of_le_of_lt (hb (Option.isNone_iff_eq_none.mp hn)) this.1
  refine ⟨cons', h1, h2.imp fun id p h => ⟨h.1, h.2, h.2.uniform fun r c => ?_⟩⟩
  have := times_diagonals hB.order_ok.2 hpos (r := r) (c := c) B.us hus BSt.init 0
  refine this.trans ?_
  split <;> omega

/-- **C92, columns only.** The same after any sequence of (partial, possibly interrupted) `calculate_columns` calls. -/
theorem C92_columns_partial (B : BatchCase α) (ids : List Nat) (hB : B.Ok (ids.map fun id => [id])) (hus : ∀ op ∈ B.us, ∃ a e, op = .columns a e) :
    ∃ cons', B.result Reservoir.ops (ids.map fun id => (Reservoir.new, [id])) = .ok cons' ∧
      List.Forall₂ (fun id p => p.2 = [id] ∧ B.Drawn id p.1 ∧ B.Uniform id p.1) ids cons' := by
  obtain ⟨cons', h1, h2⟩ := C92_profile_partial B ids hB
  exact ⟨cons', h1, h2.imp fun id p h => ⟨h.1, h.2, h.2.uniform fun r c => times_columns B.us hus BSt.init 0 (by omega)⟩⟩

/-- In a self-join with `trivial_match_buffer >= 0`, once column 0 has been calculated `profile_index_left[0]` is 0 and `num_matches_left[0]` is 1 although the
only pair on that side is a trivial match and has no distance (`matrix_profile_left[0]` is `+inf`). -/
theorem C92_band_index (B : BatchCase α) (ids : List Nat) (hB : B.Ok (ids.map fun id => [id])) (hq : B.query = none) (hb : 0 ≤ B.b) (h0 : B.column 0) :
    ∃ cons', B.result Reservoir.ops (ids.map fun id => (Reservoir.new, [id])) = .ok cons' ∧
      List.Forall₂ (fun id p => p.2 = [id] ∧ p.1.All fun p => ∃ e, p.left[0]? = some e ∧ e.mp = .pinf ∧ e.idx = 0 ∧ e.num = 1) ids cons' := by
  obtain ⟨cons', h1, h2⟩ := C92_profile_partial B ids hB
  refine ⟨cons', h1, h2.imp fun id p h => ⟨h.1, ?_⟩⟩
  have hw := hB.toAny.w_pos
  have hrow : B.rowsOf true 0 = {0} := by
    ext r
    have := hB.toAny.h_pos
    unfold BatchCase.rowsOf
    rw [Finset.mem_filter, Finset.mem_range, decide_eq_true_eq, Finset.mem_singleton]
    omega
  refine (h.2.sizes.and (h.2.profile.and h.2.nothing)).mono fun p hp => ?_
  obtain ⟨⟨p1, -⟩, p2, p3⟩ := hp
  have he : (p.side true)[0]? = some (p.left[0]'(by omega)) := by
    show p.left[0]? = _
    simp [p1, hw]
  have hinf : (p.left[0]'(by omega)).mp = .pinf := by
    rcases (p2 true 0 hw _ he).2 with h | ⟨r, a1, a2, -⟩
    · exact h
    · rw [hrow, Finset.mem_singleton] at a1
      subst a1
      exact absurd ⟨by omega, by omega⟩ (hB.toAny.done_far a2)
  obtain ⟨⟨r, a1, a2⟩, a3⟩ := (p3 true 0 hw _ he hinf).2 h0 (by rw [hrow]; simp)
  rw [hrow, Finset.mem_singleton] at a1
  subst a1
  exact ⟨_, he, hinf, a2, by rw [a3, hrow]; rfl⟩

/-! ### Concrete cases -/

/-- A constant series of 4 points, subsequence length 2: all 9 distances are 0. -/
noncomputable def exConst (buffer : Int) (us : List BOp) (os : List Anytime.Op) : BatchCase ℤ where
  memE := fun n => List.replicate n .nan
  memZ := ZN.zeroMem
  shuffle := fun l => l
  π := fun _ z => z
  m := 2
  s := [5, 5, 5, 5]
  query := none
  nDim := 1
  buffer := some buffer
  kinds := [(.euclidean 2, 0)]
  needed := [0]
  us := us
  os := os

theorem exConst_value (buffer : Int) (us : List BOp) (os : List Anytime.Op) (r c : Nat) (hr : r < 3) (hc : c < 3) : (exConst buffer us os).value 0 r c = 0 := by
  have h1 : r = 0 ∨ r = 1 ∨ r = 2 := by omega
  have h2 : c = 0 ∨ c = 1 ∨ c = 2 := by omega
  rcases h1 with rfl | rfl | rfl <;> rcases h2 with rfl | rfl | rfl <;>
    simp [BatchCase.value, exConst, streamValue, GenKind.value, BatchCase.q, sqd]

theorem exConst_ok {buffer : Int} (hb : -1 ≤ buffer) (hb' : buffer < 3) {us : List BOp} {os : List Anytime.Op}
    (hc : AreBatchCalls 2 4 4 (exConst buffer us os).order BSt.init us os) : (exConst buffer us os).Ok [[0]] where
  memE := fun n => List.length_replicate
  memZ := ZN.zeroMem_ok
  perm := fun l => List.Perm.refl l
  args := by
    refine ⟨by simp [exConst], by simp [exConst], by simp [exConst], by simp [exConst], ?_, by simp [exConst], by simp [exConst], by simp [exConst], by simp [exConst]⟩
    intro _
    refine ⟨hb, ?_⟩
    simpa [exConst] using hb'
  calls := hc
  good := by
    intro _ g hg
    simp only [exConst, List.mem_cons, List.not_mem_nil, or_false] at hg
    subst hg
    refine noTiny_int _ _ _ ?_ ?_ <;>
    · intro x hx
      obtain ⟨z, -, rfl⟩ := List.mem_map.mp hx
      exact ⟨z, rfl⟩

/-- `calculate_diagonals()` with `trivial_match_buffer=-1`. -/
noncomputable def exSelf : BatchCase ℤ := exConst (-1) [.diagonals 3] [.diagonals (fun _ => false) (.float (.fin 1))]

theorem exSelf_order : exSelf.order = [0, 1, 2] := rfl

theorem exSelf_ok : exSelf.Ok [[0]] := exConst_ok (by decide) (by decide) (by
  have hv : valuesUpto 2 4 4 [0, 1, 2] 3 = 6 := rfl
  show AreBatchCalls 2 4 4 [0, 1, 2] BSt.init _ _
  refine ⟨⟨6, .inr ⟨1, rfl, by norm_num, by norm_num, ?_⟩, by decide, by decide, ?_, .inl rfl⟩, trivial⟩
  · simp only [List.length_cons, List.length_nil, hv]
    norm_num
  · intro k _ hk
    have : k = 0 ∨ k = 1 ∨ k = 2 := by omega
    rcases this with rfl | rfl | rfl <;> exact ⟨by decide, rfl⟩)

/-- `calculate_columns()`, then `calculate_diagonals()` interrupted after diagonal 1, with `trivial_match_buffer=0`. -/
noncomputable def exMixed : BatchCase ℤ := exConst 0 [.columns 0 3, .diagonals 1]
  [.columns (fun _ => false) none (.int 3), .diagonals (fun n => n == 1) (.float (.fin 1))]

theorem exMixed_order : exMixed.order = [1, 2] := rfl

theorem exMixed_ok : exMixed.Ok [[0]] := exConst_ok (by decide) (by decide) (by
  have hv : valuesUpto 2 4 4 [1, 2] 2 = 3 := rfl
  show AreBatchCalls 2 4 4 [1, 2] BSt.init _ _
  refine ⟨⟨0, 3, .inl ⟨rfl, rfl⟩, by decide, .inl rfl, by simp, .inl (by decide)⟩, ⟨3, .inr ⟨1, rfl, by norm_num, by norm_num, ?_⟩, by decide, by decide, ?_, .inr (.inr rfl)⟩, trivial⟩
  · simp only [List.length_cons, List.length_nil, hv]
    norm_num
  · intro k _ hk
    have : k = 0 := by omega
    subst this
    exact ⟨by decide, rfl⟩)

/-- The draw is not uniform among the rows at the smallest distance. In a self-join with `trivial_match_buffer=-1` the main diagonal is delivered twice:
of three rows at distance 0 the row itself is drawn with probability 1/2. After `calculate_columns()` the diagonals add the same pairs again: interrupted after
diagonal 1, of two rows at distance 0 the one next to the column is drawn with probability 2/3. -/
theorem C92_not_uniform :
    (∃ t, exSelf.result Reservoir.ops [(Reservoir.new, [0])] = .ok [(t, [0])] ∧
      ((t.bind Reservoir.profileIndex).Pr fun l => l[0]? = some 0) = 1 / 2 ∧ ((t.bind Reservoir.profileIndex).Pr fun l => l[0]? = some 1) = 1 / 4) ∧
    (∃ t, exMixed.result Reservoir.ops [(Reservoir.new, [0])] = .ok [(t, [0])] ∧
      ((t.bind Reservoir.profileIndex).Pr fun l => l[0]? = some 1) = 2 / 3 ∧ ((t.bind Reservoir.profileIndex).Pr fun l => l[0]? = some 2) = 1 / 3) := by
  constructor
  · obtain ⟨cons', h1, h2⟩ := C92_profile_partial exSelf [0] exSelf_ok
    rcases cons' with _ | ⟨⟨t, ids⟩, _ | ⟨x, xs⟩⟩
    · cases h2
    · obtain ⟨⟨h3, h4⟩, -⟩ := List.forall₂_cons.mp h2
      simp only at h3 h4
      subst h3
      have hh : exSelf.h = 3 := rfl
      have hd : ∀ r < 3, exSelf.done r 0 := by
        intro r hr
        show BSt.init.covered true (-1) [0, 1, 2] [.diagonals 3] r 0
        simp [BSt.covered, BSt.covers, BSt.init]
        omega
      have hw : ∀ r < 3, exSelf.weight 0 0 0 r = if r = 0 then 2 else 1 := by
        intro r hr
        unfold BatchCase.weight
        rw [if_pos ⟨hd r hr, exConst_value _ _ _ r 0 hr (by omega)⟩]
        show BSt.init.times true [0, 1, 2] r 0 [.diagonals 3] 0 = _
        have h1 : r = 0 ∨ r = 1 ∨ r = 2 := by omega
        rcases h1 with rfl | rfl | rfl <;> simp [BSt.times, BSt.init]
      have hsum : ∑ r ∈ Finset.range exSelf.h, exSelf.weight 0 0 0 r = 4 := by
        rw [hh, Finset.sum_range_succ, Finset.sum_range_succ, Finset.sum_range_one, hw 0 (by omega), hw 1 (by omega), hw 2 (by omega)]
        rfl
      have hm := h4.merged 0 (by decide) 0 ⟨0, by decide, hd 0 (by omega), exConst_value _ _ _ 0 0 (by omega) (by omega)⟩
        (fun r hr _ => (exConst_value _ _ _ r 0 hr (by omega)).ge)
      refine ⟨t, h1, ?_, ?_⟩
      · have := hm 0 (by decide)
        rw [hsum, hw 0 (by omega)] at this
        refine this.trans ?_
        norm_num
      · have := hm 1 (by decide)
        rw [hsum, hw 1 (by omega)] at this
        refine this.trans ?_
        norm_num
    · have := h2.length_eq
      simp at this
  · obtain ⟨cons', h1, h2⟩ := C92_profile_partial exMixed [0] exMixed_ok
    rcases cons' with _ | ⟨⟨t, ids⟩, _ | ⟨x, xs⟩⟩
    · cases h2
    · obtain ⟨⟨h3, h4⟩, -⟩ := List.forall₂_cons.mp h2
      simp only at h3 h4
      subst h3
      have hh : exMixed.h = 3 := rfl
      have hd : ∀ r < 3, exMixed.done r 0 ↔ r ≠ 0 := by
        intro r hr
        show BSt.init.covered true 0 [1, 2] [.columns 0 3, .diagonals 1] r 0 ↔ _
        simp [BSt.covered, BSt.covers, BSt.init, BSt.step]
        omega
      have hw : ∀ r < 3, exMixed.weight 0 0 0 r = if r = 0 then 0 else if r = 1 then 2 else 1 := by
        intro r hr
        unfold BatchCase.weight
        have h1 : r = 0 ∨ r = 1 ∨ r = 2 := by omega
        rcases h1 with rfl | rfl | rfl
        · rw [if_neg (fun h => (hd 0 hr).mp h.1 rfl)]; rfl
        · rw [if_pos ⟨(hd 1 hr).mpr (by decide), exConst_value _ _ _ 1 0 hr (by omega)⟩]
          show BSt.init.times true [1, 2] 1 0 [.columns 0 3, .diagonals 1] 0 = _
          simp [BSt.times, BSt.init, BSt.step]
        · rw [if_pos ⟨(hd 2 hr).mpr (by decide), exConst_value _ _ _ 2 0 hr (by omega)⟩]
          show BSt.init.times true [1, 2] 2 0 [.columns 0 3, .diagonals 1] 0 = _
          simp [BSt.times, BSt.init, BSt.step]
      have hsum : ∑ r ∈ Finset.range exMixed.h, exMixed.weight 0 0 0 r = 3 := by
        rw [hh, Finset.sum_range_succ, Finset.sum_range_succ, Finset.sum_range_one, hw 0 (by omega), hw 1 (by omega), hw 2 (by omega)]
        rfl
      have hm := h4.merged 0 (by decide) 0 ⟨1, by decide, (hd 1 (by omega)).mpr (by decide), exConst_value _ _ _ 1 0 (by omega) (by omega)⟩
        (fun r hr _ => (exConst_value _ _ _ r 0 hr (by omega)).ge)
      refine ⟨t, h1, ?_, ?_⟩
      · have := hm 1 (by decide)
        rw [hsum, hw 1 (by omega)] at this
        refine this.trans ?_
        norm_num
      · have := hm 2 (by decide)
        rw [hsum, hw 2 (by omega)] at this
        refine this.trans ?_
        norm_num
    · have := h2.length_eq
      simp at this

example : ∃ cons', exBatch.result Reservoir.ops [(Reservoir.new, [2]), (Reservoir.new, [0])] = .ok cons' ∧ cons'.length = 2 := by
  obtain ⟨cons', h1, h2⟩ := C92_profile_partial exBatch [2, 0] (exBatch_ok (by simp) (by simp) (by simp))
  exact ⟨cons', h1, h2.length_eq.symm⟩

/-- Only the first of the calls. -/
example : ∃ cons', ({exBatch with us := exBatch.us.take 1, os := exBatch.os.take 1} : BatchCase (ℤ × ℤ)).result Reservoir.ops
    [(Reservoir.new, [2]), (Reservoir.new, [0])] = .ok cons' ∧ cons'.length = 2 := by
  have h := exBatch_ok (idss := [[2], [0]]) (by simp) (by simp) (by simp)
  obtain ⟨cons', h1, h2⟩ := C92_diagonals ({exBatch with us := exBatch.us.take 1, os := exBatch.os.take 1} : BatchCase (ℤ × ℤ)) [2, 0]
    ⟨⟨h.memE, h.memZ, h.perm, h.args, ⟨exBatch_calls.1, trivial⟩⟩, by rintro ⟨a, c, -, h⟩; simp [exBatch] at h⟩ (by simp [exBatch])
    (fun _ => le_refl _)
  exact ⟨cons', h1, h2.length_eq.symm⟩

/-- Only columns. -/
example : (exConst 0 [.columns 0 3] [.columns (fun _ => false) none (.int 3)]).Ok [[0]] ∧
    (exConst 0 [.columns 0 3] [.columns (fun _ => false) none (.int 3)]).column 0 :=
  ⟨exConst_ok (by decide) (by decide) ⟨⟨0, 3, .inl ⟨rfl, rfl⟩, by decide, .inl rfl, by simp, .inl (by decide)⟩, trivial⟩, 0, 3, by simp [exConst], by omega, by omega⟩

/-- `C92_columns_partial`. -/
example := C92_columns_partial exBatchColumns [2, 0] (exBatchColumns_ok (by simp) (by simp) (by simp)) (by simp [exBatchColumns])

/-- `C92_band_index`. -/
example := C92_band_index (exConst 0 [.columns 0 3] [.columns (fun _ => false) none (.int 3)]) [0]
  (exConst_ok (by decide) (by decide) ⟨⟨0, 3, .inl ⟨rfl, rfl⟩, by decide, .inl rfl, by simp, .inl (by decide)⟩, trivial⟩) rfl (le_refl _)
  ⟨0, 3, by simp [exConst], by omega, by omega⟩

end Verif
