import Verif.Props.BatchMatrix

/-!
# C69: `ThresholdCounter` at any moment of a batch calculation
-/

namespace Verif
open Spec
variable {α G K : Type}

/-- The number of rows counted for column `c`, starting from `n`: a diagonal adds the rows of the column it runs through if they pass the test `P`, in a
self-join a second time for its mirror image; a calculated column replaces the number by that of all rows that pass the test `Q`. -/
def Spec.BSt.tally (h : Nat) (selfJoin : Bool) (order : List Int) (P Q : Nat → Bool) (c : Nat) : BSt → List BOp → Nat → Nat
  | _, [], n => n
  | u, .columns a e :: us, n => BSt.tally h selfJoin order P Q c (u.step (.columns a e)) us (if a ≤ c ∧ c < e then (List.range h).countP Q else n)
  | u, .diagonals k :: us, n => BSt.tally h selfJoin order P Q c (u.step (.diagonals k)) us
      (n + ((List.range h).countP fun r : Nat => decide ((c : Int) - r ∈ (order.take k).drop u.next) && P r) +
        if selfJoin then (List.range h).countP fun r : Nat => decide ((r : Int) - c ∈ (order.take k).drop u.next) && P r else 0)

/-- Counting of one delivery. -/
def countStep (c : Nat) (acc : List (Fl K)) (d : Delivery K) : List (Fl K) :=
  match d with
  | .column c' vals => if c' = c then vals else acc
  | d => acc ++ ((d.cells 0 0).filter fun x => decide (x.col = (c : Int))).map Cell.val

theorem countedFor_eq (c : Nat) (ds : List (Delivery K)) : countedFor c ds = ds.foldl (countStep c) [] := rfl

theorem countStep_columns (c : Nat) (l : List Nat) (vals : Nat → List (Fl K)) (f : Nat → Nat) (hf : ∀ i ∈ l, ∀ j ∈ l, f i = c → f j = c → vals i = vals j) :
    ∀ acc, (l.map fun i => Delivery.column (f i) (vals i)).foldl (countStep c) acc =
      if h : ∃ i ∈ l, f i = c then vals (Classical.choose h) else acc := by
  induction l with
  | nil => intro acc; simp
  | cons i l ih =>
    intro acc
    rw [List.map_cons, List.foldl_cons, ih fun a ha b hb => hf a (by simp [ha]) b (by simp [hb])]
    by_cases h1 : ∃ j ∈ l, f j = c
    · have h2 : ∃ j ∈ i :: l, f j = c := by obtain ⟨j, hj, e⟩ := h1; exact ⟨j, by simp [hj], e⟩
      rw [dif_pos h1, dif_pos h2]
      have g1 := Classical.choose_spec h1
      have g2 := Classical.choose_spec h2
      exact hf _ (by simp [g1.1]) _ g2.1 g1.2 g2.2
    · rw [dif_neg h1]
      by_cases hi : f i = c
      · have h2 : ∃ j ∈ i :: l, f j = c := ⟨i, by simp, hi⟩
        rw [dif_pos h2]
        have g2 := Classical.choose_spec h2
        show (if f i = c then vals i else acc) = _
        rw [if_pos hi]
        exact hf i (by simp) _ g2.1 hi g2.2
      · have h2 : ¬ ∃ j ∈ i :: l, f j = c := by
          rintro ⟨j, hj, e⟩
          rcases List.mem_cons.mp hj with rfl | hj
          · exact hi e
          · exact h1 ⟨j, hj, e⟩
        rw [dif_neg h2]
        show (if f i = c then vals i else acc) = _
        rw [if_neg hi]

theorem countStep_diagsOf (A : Nat → Nat → Fl K) (h w : Nat) (dl : List Int) (c : Nat) (hc : c < w) (P : Fl K → Bool) : ∀ acc : List (Fl K),
    ((diagsOf A h w dl).foldl (countStep c) acc).countP P =
      acc.countP P + dl.countP fun d => decide (0 ≤ (c : Int) - d) && (decide ((c : Int) - d < h) && P (A ((c : Int) - d).toNat c)) := by
  intro acc
  have h1 : ∀ (ds : List (Delivery K)), (∀ d ∈ ds, d.IsDiag) → ∀ acc, ds.foldl (countStep c) acc = acc ++ ds.foldl (countStep c) [] := by
    intro ds hds
    induction ds with
    | nil => intro acc; simp
    | cons d ds ih =>
      intro acc
      rw [List.foldl_cons, List.foldl_cons, ih (fun d hd => hds d (by simp [hd])), ih (fun d hd => hds d (by simp [hd])) (countStep c [] d), ← List.append_assoc]
      congr 1
      have := hds d (by simp)
      cases d with
      | diag d v => simp [countStep]
      | _ => exact this.elim
  rw [h1 _ fun d hd => (diagsOf_isDiag A h w dl d hd).1, List.countP_append, ← countedFor_eq, countedFor_diagsOf A h w dl c hc P]

theorem diag_of_eq {A : Nat → Nat → Fl K} {h w : Nat} {d : Int} {v : List (Fl K)} (ho : (Delivery.diag d v).Of A h)
    (hl : v.length = min (h - (-d).toNat) (w - d.toNat)) : (Delivery.diag d v) ∈ diagsOf A h w [d] := by
  rw [diagsOf, List.map_singleton, List.mem_singleton, ← hl]
  congr 1
  apply List.ext_getElem?
  intro k
  rw [List.getElem?_map]
  by_cases hk : k < v.length
  · rw [List.getElem?_range hk, List.getElem?_eq_getElem hk]
    exact congrArg some (ho k _ (List.getElem?_eq_getElem hk))
  · rw [List.getElem?_eq_none (by omega), List.getElem?_eq_none (by simp; omega)]
    rfl

theorem batch_diagsOf (m : Nat) (selfJoin : Bool) (b : Int) (hb : -1 ≤ b) (order : List Int) (D : List α → List α → Fl K) (s q : List α)
    (hs : m ≤ s.length) (hq : m ≤ q.length)
    (ho : OrderOk m selfJoin b order s.length q.length) (hself : selfJoin = true → q = s) (hnot : selfJoin = false → b = -1)
    (hsym : selfJoin = true → ∀ x y, D x y = D y x) (u : BSt) (n : Nat) :
    batchDeliveries m selfJoin b order D s q u (.diagonals n) = diagsOf (pairValue D m b s q) (q.length + 1 - m) (s.length + 1 - m)
      (((order.take n).drop u.next).flatMap fun d => d :: if selfJoin then [-d] else []) := by
  have hof := (batchDeliveries_cells m selfJoin b hb order D s q hs hq ho hself hnot hsym u (.diagonals n) (by intro a c h; cases h)).of
  have hsub : ∀ d ∈ (order.take n).drop u.next, d + m ≤ s.length ∧ -d + m ≤ q.length ∧ (selfJoin = true → b < d) := fun d hd =>
    ho d (List.mem_of_mem_take (List.mem_of_mem_drop hd))
  have key : ∀ l : List Int, (∀ d ∈ l, d + m ≤ s.length ∧ -d + m ≤ q.length ∧ (selfJoin = true → b < d)) →
      (∀ x ∈ l.flatMap fun d => (.diag d (diagValues D m s q d) : Delivery K) :: if selfJoin then [.diag (-d) (diagValues D m s q d)] else [],
        x.Of (pairValue D m b s q) (q.length + 1 - m)) →
      (l.flatMap fun d => (.diag d (diagValues D m s q d) : Delivery K) :: if selfJoin then [.diag (-d) (diagValues D m s q d)] else []) =
        diagsOf (pairValue D m b s q) (q.length + 1 - m) (s.length + 1 - m) (l.flatMap fun d => d :: if selfJoin then [-d] else []) := by
    intro l
    induction l with
    | nil => intro _ _; rfl
    | cons d l ih =>
      intro h1 h2
      rw [List.flatMap_cons, List.flatMap_cons, ih (fun d hd => h1 d (by simp [hd])) (fun x hx => h2 x (by rw [List.flatMap_cons]; exact List.mem_append_right _ hx))]
      have e : ∀ a c : List Int, diagsOf (pairValue D m b s q) (q.length + 1 - m) (s.length + 1 - m) (a ++ c) =
          diagsOf (pairValue D m b s q) (q.length + 1 - m) (s.length + 1 - m) a ++ diagsOf (pairValue D m b s q) (q.length + 1 - m) (s.length + 1 - m) c := by
        intro a c
        simp [diagsOf]
      rw [e]
      congr 1
      obtain ⟨g1, g2, g3⟩ := h1 d (by simp)
      have hlen := diagValues_length D m s q d
      have o1 := h2 (.diag d (diagValues D m s q d)) (by simp)
      have e1 := List.mem_singleton.mp (diag_of_eq (w := s.length + 1 - m) o1 (by rw [hlen, diagEntries]; omega))
      cases hj : selfJoin with
      | false =>
        simp only [Bool.false_eq_true, if_false]
        rw [e1]; rfl
      | true =>
        have o2 := h2 (.diag (-d) (diagValues D m s q d)) (by simp [hj])
        have hqs := hself hj
        have hd := g3 hj
        have e2 := List.mem_singleton.mp (diag_of_eq (w := s.length + 1 - m) o2 (by rw [hlen, diagEntries, hqs]; omega))
        simp only [if_true]
        rw [e1, e2]; rfl
  exact key _ hsub hof

theorem countP_neg (h c : Nat) (dl : List Int) (hnd : dl.Nodup) (Q : Nat → Bool) :
    ((dl.map fun d => -d).countP fun d => decide (0 ≤ (c : Int) - d) && (decide ((c : Int) - d < h) && Q ((c : Int) - d).toNat)) =
      (List.range h).countP fun r : Nat => decide ((r : Int) - c ∈ dl) && Q r := by
  rw [countP_rows h c (dl.map fun d => -d) (hnd.map fun a b h => by simpa using h) Q]
  congr 1
  funext r
  congr 1
  rw [decide_eq_decide, List.mem_map]
  constructor
  · rintro ⟨d, h1, h2⟩
    rwa [show (r : Int) - c = d by omega]
  · intro h
    exact ⟨_, h, by omega⟩

theorem countP_mirror (l : List Int) (selfJoin : Bool) (f : Int → Bool) :
    (l.flatMap fun d => d :: if selfJoin then [-d] else []).countP f = l.countP f + if selfJoin then (l.map fun d => -d).countP f else 0 := by
  induction l with
  | nil => simp
  | cons d l ih =>
    rw [List.flatMap_cons, List.countP_append, ih, List.countP_cons]
    cases selfJoin with
    | false => simp [List.countP_cons]; omega
    | true => simp [List.countP_cons]; omega

theorem tally_ok (m : Nat) (selfJoin : Bool) (b : Int) (hb : -1 ≤ b) (order : List Int) (hnd : order.Nodup) (D : List α → List α → Fl K) (s q : List α)
    (hs : m ≤ s.length) (hq : m ≤ q.length)
    (ho : OrderOk m selfJoin b order s.length q.length) (hself : selfJoin = true → q = s) (hnot : selfJoin = false → b = -1)
    (hsym : selfJoin = true → ∀ x y, D x y = D y x) (c : Nat) (hc : c < s.length + 1 - m) (T : Fl K → Bool) (us : List BOp) :
    ∀ (u : BSt) (acc : List (Fl K)), ((allDeliveries m selfJoin b order D s q u us).foldl (countStep c) acc).countP T =
      u.tally (q.length + 1 - m) selfJoin order (fun r => T (D ((s.drop c).take m) ((q.drop r).take m))) (fun r => T (pairValue D m b s q r c)) c us (acc.countP T) := by
  induction us with
  | nil => intro u acc; rfl
  | cons op us ih =>
    intro u acc
    rw [allDeliveries, List.foldl_append, ih]
    cases op with
    | columns a e =>
      rw [BSt.tally]
      congr 1
      rw [batchDeliveries, countStep_columns c (List.range (e - a)) (fun i => (List.range (q.length + 1 - m)).map fun r => pairValue D m b s q r (a + i)) (fun i => a + i)
        (by intro i _ j _ h1 h2; rw [show i = j by omega])]
      by_cases h : a ≤ c ∧ c < e
      · have h1 : ∃ i ∈ List.range (e - a), a + i = c := ⟨c - a, by rw [List.mem_range]; omega, by omega⟩
        rw [if_pos h, dif_pos h1, (Classical.choose_spec h1).2, List.countP_map]
        rfl
      · have h1 : ¬ ∃ i ∈ List.range (e - a), a + i = c := by
          rintro ⟨i, hi, e⟩
          rw [List.mem_range] at hi
          omega
        rw [if_neg h, dif_neg h1]
    | diagonals n =>
      rw [BSt.tally]
      congr 1
      have hxs : ((order.take n).drop u.next).Nodup := (hnd.sublist (List.take_sublist _ _)).sublist (List.drop_sublist _ _)
      rw [batch_diagsOf m selfJoin b hb order D s q hs hq ho hself hnot hsym, countStep_diagsOf _ _ _ _ c hc, countP_mirror, Nat.add_assoc]
      congr 1
      rw [countP_rows (q.length + 1 - m) c _ hxs fun r => T (pairValue D m b s q r c), countP_neg (q.length + 1 - m) c _ hxs fun r => T (pairValue D m b s q r c)]
      have hsub : ∀ d ∈ (order.take n).drop u.next, selfJoin = true → b < d := fun d hd => (ho d (List.mem_of_mem_take (List.mem_of_mem_drop hd))).2.2
      have far : ∀ r : Nat, ((c : Int) - r ∈ (order.take n).drop u.next ∨ (selfJoin = true ∧ (r : Int) - c ∈ (order.take n).drop u.next)) →
          pairValue D m b s q r c = D ((s.drop c).take m) ((q.drop r).take m) := by
        intro r h
        apply pairValue_far
        cases hj : selfJoin with
        | false => have := hnot hj; omega
        | true =>
          rcases h with h | ⟨-, h⟩
          · have := hsub _ h hj; omega
          · have := hsub _ h hj; omega
      congr 1
      · apply List.countP_congr
        intro r _
        by_cases h : (c : Int) - r ∈ (order.take n).drop u.next
        · rw [far r (.inl h)]
        · simp [h]
      · cases hj : selfJoin with
        | false => rfl
        | true =>
          simp only [if_true]
          apply List.countP_congr
          intro r _
          by_cases h : (r : Int) - c ∈ (order.take n).drop u.next
          · rw [far r (.inr ⟨hj, h⟩)]
          · simp [h]

theorem TC.feed_eq [LinearOrder K] (gops : GenOps G K) (ds : List (Delivery K)) (hns : ∀ d ∈ ds, d.NoShift) :
    ∀ p : TC K, feed (TC.ops gops) p (ds.map Delivery.event) = p.run ds := by
  induction ds with
  | nil => intro p; rfl
  | cons d ds ih =>
    intro p
    have e : (Delivery.event d).apply (TC.ops gops) p = p.deliver d := by
      have := hns d (by simp)
      cases d with
      | diag d v => rfl
      | column c v => rfl
      | _ => exact this.elim
    show (do feed _ (← d.event.apply (TC.ops gops) p) (ds.map Delivery.event)) = (do let p ← p.deliver d; p.run ds)
    rw [e]
    cases p.deliver d with
    | error e => rfl
    | ok p1 => exact ih (fun d hd => hns d (by simp [hd])) p1

/-- Is the distance of the pair (`r`, `c`) at most `θ`? -/
noncomputable def BatchCase.below (B : BatchCase α) (id : Nat) (θ : Fl ℝ) (c r : Nat) : Bool := Fl.leF (.fin (B.value id r c)) θ

/-- The same with `+inf` in the trivial match band. -/
noncomputable def BatchCase.belowMasked (B : BatchCase α) (id : Nat) (θ : Fl ℝ) (c r : Nat) : Bool := Fl.leF (B.masked id r c) θ

/-- A `ThresholdCounter` that receives the calls of the calculation. -/
theorem BatchCase.Any.counts_fed {B : BatchCase α} {idss : List (List Nat)} (hB : B.Any idss) (thr : List (Fl ℝ)) {id : Nat} (hlt : id < B.kinds.length) :
    ∃ p p' : TC ℝ, TC.initialise thr (B.w : Int) = .ok p ∧ p.run (B.dels id) = .ok p' ∧ (∀ d ∈ B.dels id, d.NoShift) ∧
      ∀ (t : Nat) (θ : Fl ℝ), thr[t]? = some θ → ∀ j < B.w,
        p'.counts t j = BSt.init.tally B.h B.query.isNone B.order (B.below id θ j) (B.belowMasked id θ j) j B.us 0 := by
  have hcells := hB.cells hlt
  have hns : ∀ d ∈ B.dels id, d.NoShift := by
    intro d hm
    have := hcells.of d hm
    cases d with
    | diag d v => trivial
    | column c v => trivial
    | _ => exact this.elim
  obtain ⟨p, p', e1, e2, e3⟩ := C45_any_history thr B.h B.w (B.dels id) hns hcells.valid
  refine ⟨p, p', e1, e2, hns, ?_⟩
  intro t θ ht j hj
  rw [e3 t θ ht j hj, countedFor_eq]
  have hself : B.query.isNone = true → B.q = B.s := by
    intro h
    unfold BatchCase.q
    rw [Option.isNone_iff_eq_none.mp h]; rfl
  have := tally_ok B.m B.query.isNone B.b (batchBuffer_ge hB.args).1 B.order hB.order_ok.2 (streamDist B.π B.m B.kinds id) B.s B.q hB.args.series
    (batchQuery_le hB.args) hB.order_ok.1 hself (batchBuffer_ge hB.args).2 (fun _ a b => streamDist_symm B.π B.m B.kinds id a b) j hj (fun v => Fl.leF v θ) B.us BSt.init []
  refine this.trans ?_
  have e4 : (fun r => Fl.leF (streamDist B.π B.m B.kinds id ((B.s.drop j).take B.m) ((B.q.drop r).take B.m)) θ) = B.below id θ j := by
    funext r
    unfold BatchCase.below BatchCase.value
    rw [streamDist_value B.π B.m B.kinds id hlt]
  have e5 : (fun r => Fl.leF (pairValue (streamDist B.π B.m B.kinds id) B.m B.b B.s B.q r j) θ) = B.belowMasked id θ j := by
    funext r
    unfold BatchCase.belowMasked BatchCase.masked pairValue BatchCase.value
    rw [streamDist_value B.π B.m B.kinds id hlt]
  rw [e4, e5]
  rfl

/-- **C69.** `ThresholdCounter` consumers (any thresholds) of an `AnytimeCalculator` with any channels and generators, after any sequence of (partial,
possibly interrupted) `calculate_diagonals` and `calculate_columns` calls: no call raises, and the counts are those of `BSt.tally`. Partial for Euclidean
generators when columns are calculated (`BatchCase.Ok.good`): see `C66_euclidean_nan`. -/
theorem C69_counts_partial (B : BatchCase α) (cs : List (List (Fl ℝ) × Nat)) (hB : B.Ok (cs.map fun c => [c.2])) :
    ∃ cons', B.result TC.ops (cs.map fun c => (TC.new c.1, [c.2])) = .ok cons' ∧
      List.Forall₂ (fun c p => p.2 = [c.2] ∧ ∀ (t : Nat) (θ : Fl ℝ), c.1[t]? = some θ → ∀ j < B.w,
        p.1.counts t j = BSt.init.tally B.h B.query.isNone B.order (B.below c.2 θ j) (B.belowMasked c.2 θ j) j B.us 0) cs cons' := by
  obtain ⟨cons', h1, h2⟩ := BatchCase.consumers (B := B) TC.ops (fun _ => rfl) (cs.map fun c => (TC.new c.1, [c.2]))
    (by simpa [List.map_map, Function.comp_def] using hB) (fun c p => ∀ id, c.2 = [id] → ∀ (t : Nat) (θ : Fl ℝ), c.1.thresholds[t]? = some θ → ∀ j < B.w,
        p.counts t j = BSt.init.tally B.h B.query.isNone B.order (B.below id θ j) (B.belowMasked id θ j) j B.us 0) (by
      intro c hc
      obtain ⟨⟨thr, id⟩, hid, rfl⟩ := List.mem_map.mp hc
      have hlt : id < B.kinds.length := hB.id_lt (List.mem_map_of_mem (f := fun c : List (Fl ℝ) × Nat => [c.2]) hid) (by simp)
      obtain ⟨p, p', e1, e2, hns, e3⟩ := hB.toAny.counts_fed thr hlt
      refine ⟨p, p', e1, ?_, ?_⟩
      · rw [BatchCase.events_single, TC.feed_eq _ _ hns]; exact e2
      rintro id' hid' t θ ht j hj
      obtain rfl : id = id' := by simpa using hid'
      exact e3 t θ ht j hj)
  refine ⟨cons', h1, ?_⟩
  rw [List.forall₂_map_left_iff] at h2
  exact h2.imp fun c p h => ⟨h.1, h.2 c.2 rfl⟩

/-- Only columns: the number of rows in the column if it was calculated, however often. -/
theorem tally_columns (h : Nat) (selfJoin : Bool) (order : List Int) (P Q : Nat → Bool) (c : Nat) (us : List BOp) (hus : ∀ op ∈ us, ∃ a e, op = .columns a e) :
    ∀ (u : BSt) (n : Nat), ((∃ a e, .columns a e ∈ us ∧ a ≤ c ∧ c < e) → u.tally h selfJoin order P Q c us n = (List.range h).countP Q) ∧
      (¬ (∃ a e, .columns a e ∈ us ∧ a ≤ c ∧ c < e) → u.tally h selfJoin order P Q c us n = n) := by
  induction us with
  | nil => intro u n; simp [BSt.tally]
  | cons op us ih =>
    intro u n
    obtain ⟨a, e, rfl⟩ := hus op (by simp)
    have ih := ih (fun op h => hus op (by simp [h])) (u.step (.columns a e)) (if a ≤ c ∧ c < e then (List.range h).countP Q else n)
    rw [BSt.tally]
    by_cases hl : ∃ a e, .columns a e ∈ us ∧ a ≤ c ∧ c < e
    · refine ⟨fun _ => ih.1 hl, fun hn => absurd ?_ hn⟩
      obtain ⟨a, e, h1, h2⟩ := hl
      exact ⟨a, e, by simp [h1], h2⟩
    · rw [ih.2 hl]
      constructor
      · rintro ⟨a', e', h1, h2⟩
        rcases List.mem_cons.mp h1 with h1 | h1
        · cases h1; rw [if_pos h2]
        · exact absurd ⟨a', e', h1, h2⟩ hl
      · intro hn
        rw [if_neg fun h => hn ⟨a, e, by simp, h⟩]

theorem covered_later {selfJoin : Bool} {b : Int} {order : List Int} {r c : Nat} (us : List BOp) (hus : ∀ op ∈ us, ∃ n, op = .diagonals n) :
    ∀ u : BSt, u.covered selfJoin b order us r c → (c : Int) - r ∈ order.drop u.next ∨ (selfJoin = true ∧ (r : Int) - c ∈ order.drop u.next) := by
  have hdrop : ∀ (a b : Nat) (x : Int), a ≤ b → x ∈ order.drop b → x ∈ order.drop a := by
    intro a b x hab hx
    rw [show b = a + (b - a) by omega, ← List.drop_drop] at hx
    exact List.mem_of_mem_drop hx
  have htake : ∀ (n k : Nat) (x : Int), x ∈ (order.take n).drop k → x ∈ order.drop k := by
    intro n k x hx
    rw [List.drop_take] at hx
    exact List.mem_of_mem_take hx
  induction us with
  | nil => intro u h; exact h.elim
  | cons op us ih =>
    obtain ⟨n, rfl⟩ := hus op (by simp)
    rintro u (h | h)
    · exact h.imp (htake n u.next _) fun h => ⟨h.1, htake n u.next _ h.2⟩
    · have := ih (fun op h => hus op (by simp [h])) _ h
      exact this.imp (hdrop u.next _ _ (le_max_left _ _)) fun h => ⟨h.1, hdrop u.next _ _ (le_max_left _ _) h.2⟩

open Classical in
/-- Only diagonals: every pair is counted once. -/
theorem tally_diagonals (h : Nat) (selfJoin : Bool) (b : Int) (order : List Int) (hnd : order.Nodup) (hpos : selfJoin = true → ∀ d ∈ order, 0 < d) (P Q : Nat → Bool) (c : Nat)
    (us : List BOp) (hus : ∀ op ∈ us, ∃ n, op = .diagonals n) :
    ∀ (u : BSt) (n : Nat), u.tally h selfJoin order P Q c us n = n + (List.range h).countP fun r => decide (u.covered selfJoin b order us r c) && P r := by
  induction us with
  | nil =>
    intro u n
    rw [BSt.tally, List.countP_eq_zero.mpr]
    · rfl
    · intro r _ hr
      have h1 : BSt.covered selfJoin b order u [] r c := by
        have := (Bool.and_eq_true_iff.mp hr).1
        exact @of_decide_eq_true _ (propDecidable _) this
      exact h1
  | cons op us ih =>
    intro u n
    obtain ⟨k, rfl⟩ := hus op (by simp)
    have hus' : ∀ op ∈ us, ∃ n, op = .diagonals n := fun op h => hus op (by simp [h])
    rw [BSt.tally, ih hus']
    set xs := (order.take k).drop u.next with hxs
    have hmem : ∀ x ∈ xs, x ∈ order := fun x hx => List.mem_of_mem_take (List.mem_of_mem_drop hx)
    have hdisj : ∀ x ∈ xs, x ∉ order.drop (max u.next k) := by
      intro x hx hx'
      have h1 : x ∈ order.take k := List.mem_of_mem_drop hx
      have h2 : x ∈ order.drop k := by
        rw [show max u.next k = k + (max u.next k - k) by omega, ← List.drop_drop] at hx'
        exact List.mem_of_mem_drop hx'
      have h3 : ((order.take k) ++ order.drop k).Nodup := by rw [List.take_append_drop]; exact hnd
      exact (List.nodup_append.mp h3).2.2 x h1 x h2 rfl
    have hlater := fun r => covered_later (selfJoin := selfJoin) (b := b) (order := order) (r := r) (c := c) us hus' (u.step (.diagonals k))
    have hstep : (u.step (.diagonals k)).next = max u.next k := rfl
    rw [hstep] at hlater
    have hcons : ∀ r, u.covered selfJoin b order (.diagonals k :: us) r c ↔
        ((c : Int) - r ∈ xs ∨ (selfJoin = true ∧ (r : Int) - c ∈ xs)) ∨ (u.step (.diagonals k)).covered selfJoin b order us r c := fun r => Iff.rfl
    have hone : ∀ r : Nat, ((if (decide (u.covered selfJoin b order (.diagonals k :: us) r c) && P r) = true then 1 else 0) : Nat) =
        (if (decide ((c : Int) - r ∈ xs) && P r) = true then 1 else 0) +
        (if selfJoin then (if (decide ((r : Int) - c ∈ xs) && P r) = true then 1 else 0) else 0) +
        (if (decide ((u.step (.diagonals k)).covered selfJoin b order us r c) && P r) = true then 1 else 0) := by
      intro r
      cases hP : P r with
      | false => simp
      | true =>
        simp only [Bool.and_true, decide_eq_true_eq]
        by_cases h1 : (c : Int) - r ∈ xs
        · have n2 : ¬ (selfJoin = true ∧ (r : Int) - c ∈ xs) := by
            rintro ⟨hj, h2⟩
            have := hpos hj _ (hmem _ h1)
            have := hpos hj _ (hmem _ h2)
            omega
          have n3 : ¬ (u.step (.diagonals k)).covered selfJoin b order us r c := by
            intro h3
            rcases hlater r h3 with h4 | ⟨hj, h4⟩
            · exact hdisj _ h1 h4
            · have := hpos hj _ (hmem _ h1)
              have := hpos hj _ (List.mem_of_mem_drop h4)
              omega
          rw [if_pos ((hcons r).mpr (.inl (.inl h1))), if_pos h1, if_neg n3]
          cases selfJoin with
          | false => simp
          | true => rw [if_neg fun h => n2 ⟨rfl, h⟩]; simp
        · rw [if_neg h1]
          by_cases h2 : selfJoin = true ∧ (r : Int) - c ∈ xs
          · have n3 : ¬ (u.step (.diagonals k)).covered selfJoin b order us r c := by
              intro h3
              rcases hlater r h3 with h4 | ⟨hj, h4⟩
              · have := hpos h2.1 _ (hmem _ h2.2)
                have := hpos h2.1 _ (List.mem_of_mem_drop h4)
                omega
              · exact hdisj _ h2.2 h4
            rw [if_pos ((hcons r).mpr (.inl (.inr h2))), if_pos h2.1, if_pos h2.2, if_neg n3]
          · have e1 : u.covered selfJoin b order (.diagonals k :: us) r c ↔ (u.step (.diagonals k)).covered selfJoin b order us r c := by
              rw [hcons]; tauto
            simp only [e1]
            cases selfJoin with
            | false => simp
            | true => rw [if_neg fun h => h2 ⟨rfl, h⟩]; simp
    have hsum : ∀ f : Nat → Bool, (List.range h).countP f = ((List.range h).map fun r => if f r = true then 1 else 0).sum := by
      intro f
      induction List.range h with
      | nil => rfl
      | cons a l ih => rw [List.countP_cons, List.map_cons, List.sum_cons, ih]; omega
    rw [hsum fun r => decide (u.covered selfJoin b order (.diagonals k :: us) r c) && P r, List.map_congr_left fun r _ => hone r]
    simp only [hsum]
    cases selfJoin with
    | false => simp only [Bool.false_eq_true, if_false, Nat.add_zero, List.sum_map_add]; omega
    | true => simp only [if_true, List.sum_map_add]; omega

open Classical in
/-- **C69, diagonals only.** With a query, or with `trivial_match_buffer >= 0`, after any sequence of (partial, possibly interrupted) `calculate_diagonals` calls
every pair counts once: the counts are the numbers of pairs calculated so far with a distance `<=` the threshold. No condition on the values. -/
theorem C69_diagonals (B : BatchCase α) (cs : List (List (Fl ℝ) × Nat)) (hB : B.Ok (cs.map fun c => [c.2])) (hus : ∀ op ∈ B.us, ∃ n, op = .diagonals n)
    (hb : B.query = none → 0 ≤ B.b) :
    ∃ cons', B.result TC.ops (cs.map fun c => (TC.new c.1, [c.2])) = .ok cons' ∧
      List.Forall₂ (fun c p => p.2 = [c.2] ∧ ∀ (t : Nat) (θ : Fl ℝ), c.1[t]? = some θ → ∀ j < B.w,
        p.1.counts t j = (List.range B.h).countP fun r => decide (B.done r j) && Fl.leF (.fin (B.value c.2 r j)) θ) cs cons' := by
  obtain ⟨cons', h1, h2⟩ := C69_counts_partial B cs hB
  have hpos : B.query.isNone = true → ∀ d ∈ B.order, 0 < d := by
    intro hn d hd
    have := ((batchOrder_ok hB.perm hB.args.series (fun e => (hB.args.bufferLen e).1) (batchQuery_le hB.args)).2.2 d).mp hd
    rw [if_pos hn] at this
    exact lt_of_le_of_lt (hb (Option.isNone_iff_eq_none.mp hn)) this.1
  refine ⟨cons', h1, h2.imp fun c p h => ⟨h.1, fun t θ ht j hj => ?_⟩⟩
  rw [h.2 t θ ht j hj, tally_diagonals B.h B.query.isNone B.b B.order hB.order_ok.2 hpos _ _ j B.us hus, Nat.zero_add]
  rfl

open Classical in
/-- **C69, columns only.** After any sequence of (partial, possibly interrupted) `calculate_columns` calls the counts of a column are the numbers of rows with a
distance `<=` the threshold, `+inf` in the trivial match band, if the column was calculated, however often, and 0 if not. -/
theorem C69_columns_partial (B : BatchCase α) (cs : List (List (Fl ℝ) × Nat)) (hB : B.Ok (cs.map fun c => [c.2])) (hus : ∀ op ∈ B.us, ∃ a e, op = .columns a e) :
    ∃ cons', B.result TC.ops (cs.map fun c => (TC.new c.1, [c.2])) = .ok cons' ∧
      List.Forall₂ (fun c p => p.2 = [c.2] ∧ ∀ (t : Nat) (θ : Fl ℝ), c.1[t]? = some θ → ∀ j < B.w,
        p.1.counts t j = if B.column j then (List.range B.h).countP fun r => Fl.leF (B.masked c.2 r j) θ else 0) cs cons' := by
  obtain ⟨cons', h1, h2⟩ := C69_counts_partial B cs hB
  refine ⟨cons', h1, h2.imp fun c p h => ⟨h.1, fun t θ ht j hj => ?_⟩⟩
  rw [h.2 t θ ht j hj]
  have := tally_columns B.h B.query.isNone B.order (B.below c.2 θ j) (B.belowMasked c.2 θ j) j B.us hus BSt.init 0
  by_cases hc : B.column j
  · rw [if_pos hc]; exact this.1 hc
  · rw [if_neg hc]; exact this.2 hc

/-- The counts go up twice for a pair that is calculated as part of a column first and then on a diagonal: `calculate_columns()` followed by
`calculate_diagonals()` ends with the counts doubled, in the other order they are right. -/
theorem C69_counted_twice :
    ([[.columns (fun _ => false) none (.float (.fin 1))], [.columns (fun _ => false) none (.float (.fin 1)), .diagonals (fun _ => false) (.float (.fin 1))],
        [.diagonals (fun _ => false) (.float (.fin 1)), .columns (fun _ => false) none (.float (.fin 1))]] : List (List Anytime.Op)).map (fun os =>
      (batchAll (TC.ops (Eucl.genOps zeroMem (fun x : ℚ => x))) id [(Eucl.prepare zeroMem, 0)] [(TC.new [.fin 30], [0])] [0] 2
        [[.fin 1, .fin 5, .fin 2, .fin 8, .fin 3]] none (some 0) os).map fun l => l.map fun x => (List.range 4).map (x.1.counts 0)) =
      [.ok [[2, 2, 1, 1]], .ok [[4, 4, 2, 2]], .ok [[2, 2, 1, 1]]] := by
  decide +kernel

/-! ### Concrete cases -/

example : ∃ cons', exBatch.result TC.ops [(TC.new [.fin 3, .pinf], [2]), (TC.new [.fin (5 / 2)], [0])] = .ok cons' ∧ cons'.length = 2 := by
  obtain ⟨cons', h1, h2⟩ := C69_counts_partial exBatch [([.fin 3, .pinf], 2), ([.fin (5 / 2)], 0)] (exBatch_ok (by simp) (by simp) (by simp))
  exact ⟨cons', h1, h2.length_eq.symm⟩

/-- Only the first of the calls. -/
example : ({exBatch with us := exBatch.us.take 1, os := exBatch.os.take 1} : BatchCase (ℤ × ℤ)).Ok [[2], [0]] :=
  have h := exBatch_ok (idss := [[2], [0]]) (by simp) (by simp) (by simp)
  ⟨⟨h.memE, h.memZ, h.perm, h.args, ⟨exBatch_calls.1, trivial⟩⟩, by rintro ⟨a, c, -, h⟩; simp [exBatch] at h⟩

/-- The counts of the calls of `exBatch`: diagonals 3 and 2, column 1, then diagonal 1. -/
example (P Q : Nat → Bool) : BSt.init.tally 4 true [3, 2, 1] P Q 1 [.diagonals 2, .columns 1 2, .diagonals 3] 0 =
    (List.range 4).countP Q + ((if P 0 then 1 else 0) + if P 2 then 1 else 0) := by
  simp [BSt.tally, BSt.init, BSt.step, List.range_succ, List.countP_cons]
  cases P 0 <;> cases P 2 <;> simp

/-- `C69_diagonals`, with an infinite threshold. -/
example := C69_diagonals exBatchDiagonals [([.fin 3, .pinf], 2), ([.fin (5 / 2)], 0)] (exBatchDiagonals_ok (by simp) (by simp) (by simp)) (by simp [exBatchDiagonals]) (fun _ => le_refl _)

/-- `C69_columns_partial`. -/
example := C69_columns_partial exBatchColumns [([.fin 3, .pinf], 2), ([.fin (5 / 2)], 0)] (exBatchColumns_ok (by simp) (by simp) (by simp)) (by simp [exBatchColumns])

end Verif
