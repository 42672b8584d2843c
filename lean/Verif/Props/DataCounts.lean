import Verif.Props.Growth
import Verif.Props.BatchCounts

/-!
# C104, C110 and C111 for `ThresholdCounter`

The counts of a calculation next to those of one on the same data read backwards, of one on longer data, and of one with series and query exchanged.
-/

namespace Verif
open Spec
variable {α : Type}

theorem countP_range_card (f : Nat → Bool) (n : Nat) : (List.range n).countP f = ((Finset.range n).filter fun r => f r = true).card := by
  induction n with
  | zero => rfl
  | succ n ih =>
    rw [List.range_succ, List.countP_append, ih, Finset.range_add_one, Finset.filter_insert]
    by_cases h : f n = true
    · rw [if_pos h, Finset.card_insert_of_notMem (by simp)]
      simp [h]
    · rw [if_neg h]
      simp [h]

open Classical in
/-- The counts after a complete calculation by diagonals. -/
theorem BatchCase.allCounts (B : BatchCase α) (cs : List (List (Fl ℝ) × Nat)) (hB : B.Ok (cs.map fun c => [c.2])) (hc : B.Complete) (hus : ∀ op ∈ B.us, ∃ n, op = .diagonals n)
    (hb : B.query = none → 0 ≤ B.b) :
    ∃ cons', B.result TC.ops (cs.map fun c => (TC.new c.1, [c.2])) = .ok cons' ∧
      List.Forall₂ (fun c p => p.2 = [c.2] ∧ ∀ (t : Nat) (θ : Fl ℝ), c.1[t]? = some θ → ∀ j < B.w,
        p.1.counts t j = ((Finset.range B.h).filter fun r => (B.query = none → Apart B.b r j) ∧ Fl.leF (.fin (B.value c.2 r j)) θ = true).card) cs cons' := by
  obtain ⟨cons', h1, h2⟩ := C69_diagonals B cs hB hus hb
  refine ⟨cons', h1, h2.imp fun c p h => ⟨h.1, fun t θ ht j hj => ?_⟩⟩
  rw [h.2 t θ ht j hj, countP_range_card]
  refine congrArg Finset.card (Finset.filter_congr fun r hr => ?_)
  have := hB.complete hc r j (Finset.mem_range.mp hr) hj
  rw [Bool.and_eq_true, decide_eq_true_iff, this]

open Classical in
/-- **C110** for `ThresholdCounter`: on the data read backwards the counts are read backwards. Both calculations by diagonals (`C69_counted_twice`), in a self-join with a non-negative
trivial match buffer. -/
theorem C110_counts (B B' : BatchCase α) (cs : List (List (Fl ℝ) × Nat)) (hB : B.Ok (cs.map fun c => [c.2])) (hB' : B'.Ok (cs.map fun c => [c.2])) (hrev : B.Reversed B')
    (hc : B.Complete) (hc' : B'.Complete) (hus : ∀ op ∈ B.us, ∃ n, op = .diagonals n) (hus' : ∀ op ∈ B'.us, ∃ n, op = .diagonals n) (hb : B.query = none → 0 ≤ B.b) :
    ∃ cons cons', B.result TC.ops (cs.map fun c => (TC.new c.1, [c.2])) = .ok cons ∧ B'.result TC.ops (cs.map fun c => (TC.new c.1, [c.2])) = .ok cons' ∧
      cons.length = cs.length ∧ cons'.length = cs.length ∧
      ∀ (n : Nat) (thr : List (Fl ℝ)) (id : Nat) (c c' : TC ℝ × List Nat), cs[n]? = some (thr, id) → cons[n]? = some c → cons'[n]? = some c' → c.2 = [id] ∧ c'.2 = [id] ∧
        ∀ t < thr.length, ∀ j < B.w, c'.1.counts t (B.w - 1 - j) = c.1.counts t j := by
  have hn : B'.query = none ↔ B.query = none := by rw [hrev.query]; cases B.query <;> simp
  obtain ⟨cons, h1, h2⟩ := B.allCounts cs hB hc hus hb
  obtain ⟨cons', h3, h4⟩ := B'.allCounts cs hB' hc' hus' (fun h => hrev.band ▸ hb (hn.mp h))
  rw [forall₂_iff_getElem?] at h2 h4
  refine ⟨cons, cons', h1, h3, h2.1, h4.1, fun n thr id c c' hid hcn hcn' => ?_⟩
  obtain ⟨e1, e2⟩ := h2.2 n _ _ hid hcn
  obtain ⟨f1, f2⟩ := h4.2 n _ _ hid hcn'
  refine ⟨e1, f1, fun t ht j hj => ?_⟩
  have hθ : thr[t]? = some thr[t] := List.getElem?_eq_getElem ht
  rw [e2 t _ hθ j hj, f2 t _ hθ _ (by rw [hrev.width]; omega), hrev.height]
  refine Finset.card_nbij' (fun r => B.h - 1 - r) (fun r => B.h - 1 - r) ?_ ?_ ?_ ?_
  · intro r hr
    simp only [Finset.coe_filter, Finset.mem_range, Set.mem_ofPred_eq] at hr ⊢
    obtain ⟨hr, h5, h6⟩ := hr
    have hr2 : B.h - 1 - r < B.h := by omega
    have hback : B.h - 1 - (B.h - 1 - r) = r := by omega
    refine ⟨hr2, (hrev.apart hr2 hj).mp (hback.symm ▸ h5), ?_⟩
    rw [← hrev.value id hr2 hj, hback]
    exact h6
  · intro r hr
    simp only [Finset.coe_filter, Finset.mem_range, Set.mem_ofPred_eq] at hr ⊢
    obtain ⟨hr, h5, h6⟩ := hr
    exact ⟨by omega, (hrev.apart hr hj).mpr h5, by rw [hrev.value id hr hj]; exact h6⟩
  · intro r hr
    simp only [Finset.coe_filter, Finset.mem_range, Set.mem_ofPred_eq] at hr
    show B.h - 1 - (B.h - 1 - r) = r
    omega
  · intro r hr
    simp only [Finset.coe_filter, Finset.mem_range, Set.mem_ofPred_eq] at hr
    show B.h - 1 - (B.h - 1 - r) = r
    omega

open Classical in
/-- **C111** for `ThresholdCounter`: points added at the end make no count smaller, and in a join to whose query nothing is added the counts only get further columns. Both calculations by
diagonals (`C69_counted_twice`), in a self-join with a non-negative trivial match buffer. -/
theorem C111_counts (B B' : BatchCase α) (t u : List α) (cs : List (List (Fl ℝ) × Nat)) (hB : B.Ok (cs.map fun c => [c.2])) (hB' : B'.Ok (cs.map fun c => [c.2]))
    (hex : B.Extended B' t u) (hc : B.Complete) (hc' : B'.Complete) (hus : ∀ op ∈ B.us, ∃ n, op = .diagonals n) (hus' : ∀ op ∈ B'.us, ∃ n, op = .diagonals n)
    (hb : B.query = none → 0 ≤ B.b) :
    ∃ cons cons', B.result TC.ops (cs.map fun c => (TC.new c.1, [c.2])) = .ok cons ∧ B'.result TC.ops (cs.map fun c => (TC.new c.1, [c.2])) = .ok cons' ∧
      cons.length = cs.length ∧ cons'.length = cs.length ∧
      ∀ (n : Nat) (thr : List (Fl ℝ)) (id : Nat) (c c' : TC ℝ × List Nat), cs[n]? = some (thr, id) → cons[n]? = some c → cons'[n]? = some c' → c.2 = [id] ∧ c'.2 = [id] ∧
        ∀ i < thr.length, ∀ j < B.w, c.1.counts i j ≤ c'.1.counts i j ∧ c'.1.counts i j ≤ c.1.counts i j + (B'.h - B.h) ∧
          (B.query ≠ none → u = [] → c'.1.counts i j = c.1.counts i j) := by
  obtain ⟨cons, h1, h2⟩ := B.allCounts cs hB hc hus hb
  obtain ⟨cons', h3, h4⟩ := B'.allCounts cs hB' hc' hus' (fun h => hex.band ▸ hb (hex.none.mp h))
  rw [forall₂_iff_getElem?] at h2 h4
  refine ⟨cons, cons', h1, h3, h2.1, h4.1, fun n thr id c c' hid hcn hcn' => ?_⟩
  obtain ⟨e1, e2⟩ := h2.2 n _ _ hid hcn
  obtain ⟨f1, f2⟩ := h4.2 n _ _ hid hcn'
  refine ⟨e1, f1, fun i hi j hj => ?_⟩
  have hθ : thr[i]? = some thr[i] := List.getElem?_eq_getElem hi
  rw [e2 i _ hθ j hj, f2 i _ hθ _ (lt_of_lt_of_le hj hex.width)]
  have hpos : 0 < B.m := hB.args.pos
  have key : ∀ r < B.h, ((B'.query = none → Apart B'.b r j) ∧ Fl.leF (.fin (B'.value id r j)) thr[i] = true) ↔
      ((B.query = none → Apart B.b r j) ∧ Fl.leF (.fin (B.value id r j)) thr[i] = true) := by
    intro r hr
    rw [hex.none, hex.band, hex.value hpos id hr hj]
  have hle := hex.height
  have low : ((Finset.range B.h).filter fun r => (B.query = none → Apart B.b r j) ∧ Fl.leF (.fin (B.value id r j)) thr[i] = true).card ≤
      ((Finset.range B'.h).filter fun r => (B'.query = none → Apart B'.b r j) ∧ Fl.leF (.fin (B'.value id r j)) thr[i] = true).card := by
    refine Finset.card_le_card fun r hr => ?_
    rw [Finset.mem_filter, Finset.mem_range] at hr ⊢
    exact ⟨by omega, (key r hr.1).mpr hr.2⟩
  have up : ((Finset.range B'.h).filter fun r => (B'.query = none → Apart B'.b r j) ∧ Fl.leF (.fin (B'.value id r j)) thr[i] = true).card ≤
      ((Finset.range B.h).filter fun r => (B.query = none → Apart B.b r j) ∧ Fl.leF (.fin (B.value id r j)) thr[i] = true).card + (B'.h - B.h) := by
    rw [← Nat.card_Ico B.h B'.h]
    refine (Finset.card_le_card fun r hr => ?_).trans (Finset.card_union_le _ _)
    rw [Finset.mem_filter, Finset.mem_range] at hr
    rw [Finset.mem_union, Finset.mem_filter, Finset.mem_range, Finset.mem_Ico]
    by_cases h : r < B.h
    · exact .inl ⟨h, (key r h).mp hr.2⟩
    · exact .inr ⟨by omega, hr.1⟩
  refine ⟨low, up, fun hq hu => ?_⟩
  subst hu
  rw [hex.same_height hq] at up ⊢
  rw [hex.same_height hq] at low
  exact le_antisymm (by simpa using up) low

open Classical in
/-- **C104** for `ThresholdCounter`: with series and query exchanged the counts for a threshold add up to the same number. Both calculations by diagonals (`C69_counted_twice`). -/
theorem C104_counts (B B' : BatchCase α) (cs : List (List (Fl ℝ) × Nat)) (hB : B.Ok (cs.map fun c => [c.2])) (hB' : B'.Ok (cs.map fun c => [c.2])) (hsw : B.Swapped B')
    (hc : B.Complete) (hc' : B'.Complete) (hus : ∀ op ∈ B.us, ∃ n, op = .diagonals n) (hus' : ∀ op ∈ B'.us, ∃ n, op = .diagonals n) :
    ∃ cons cons', B.result TC.ops (cs.map fun c => (TC.new c.1, [c.2])) = .ok cons ∧ B'.result TC.ops (cs.map fun c => (TC.new c.1, [c.2])) = .ok cons' ∧
      cons.length = cs.length ∧ cons'.length = cs.length ∧
      ∀ (n : Nat) (thr : List (Fl ℝ)) (id : Nat) (c c' : TC ℝ × List Nat), cs[n]? = some (thr, id) → cons[n]? = some c → cons'[n]? = some c' → c.2 = [id] ∧ c'.2 = [id] ∧
        ∀ t < thr.length, ∑ j ∈ Finset.range B.w, c.1.counts t j = ∑ j ∈ Finset.range B'.w, c'.1.counts t j := by
  have hn : B.query ≠ none := by rw [hsw.query]; simp
  have hn' : B'.query ≠ none := by rw [hsw.query']; simp
  obtain ⟨cons, h1, h2⟩ := B.allCounts cs hB hc hus (fun h => absurd h hn)
  obtain ⟨cons', h3, h4⟩ := B'.allCounts cs hB' hc' hus' (fun h => absurd h hn')
  rw [forall₂_iff_getElem?] at h2 h4
  refine ⟨cons, cons', h1, h3, h2.1, h4.1, fun n thr id c c' hid hcn hcn' => ?_⟩
  obtain ⟨e1, e2⟩ := h2.2 n _ _ hid hcn
  obtain ⟨f1, f2⟩ := h4.2 n _ _ hid hcn'
  refine ⟨e1, f1, fun t ht => ?_⟩
  have hθ : thr[t]? = some thr[t] := List.getElem?_eq_getElem ht
  have hlt : id < B.kinds.length := hB.id_lt (List.mem_map_of_mem (f := fun c : List (Fl ℝ) × Nat => [c.2]) (List.mem_of_getElem? hid)) (by simp)
  rw [Finset.sum_congr rfl fun j hj => e2 t _ hθ j (Finset.mem_range.mp hj), Finset.sum_congr rfl fun j hj => f2 t _ hθ j (Finset.mem_range.mp hj)]
  simp only [Finset.card_filter]
  rw [Finset.sum_comm, ← hsw.height, hsw.width]
  refine Finset.sum_congr rfl fun r hr => Finset.sum_congr rfl fun j hj => ?_
  rw [hsw.value hlt r j]
  simp [hn, hn']

/-! ### Concrete cases -/

example := C110_counts exJoin exJoinBack [([.fin 3, .pinf], 2), ([.fin (5 / 2)], 0)] (exJoin_ok (by simp) (by simp) (by simp)) (exJoinBack_ok (by simp) (by simp) (by simp))
  exJoinBack_reversed rfl rfl (by simp [exJoin]) (by simp [exJoinBack, exJoin]) (by simp [exJoin])

example := C111_counts exJoin exJoinLong _ _ [([.fin 3, .pinf], 2), ([.fin (5 / 2)], 0)] (exJoin_ok (by simp) (by simp) (by simp)) (exJoinLong_ok (by simp) (by simp) (by simp))
  exJoinLong_extended rfl rfl (by simp [exJoin]) (by simp [exJoinLong, exJoin]) (by simp [exJoin])

example := C104_counts exJoin exJoin' [([.fin 3, .pinf], 2), ([.fin (5 / 2)], 0)] (exJoin_ok (by simp) (by simp) (by simp)) (exJoin'_ok (by simp) (by simp) (by simp))
  exJoin_swapped rfl rfl (by simp [exJoin]) (by simp [exJoin'])

/-- Only the series gets longer. -/
example := C111_counts exJoin exJoinWide _ _ [([.fin 3, .pinf], 2), ([.fin (5 / 2)], 0)] (exJoin_ok (by simp) (by simp) (by simp)) (exJoinWide_ok (by simp) (by simp) (by simp))
  exJoinWide_extended rfl rfl (by simp [exJoin]) (by simp [exJoinWide, exJoin]) (by simp [exJoin])

/-- The self-join `exBatch` calculated by diagonals, all of them. -/
noncomputable def exBatchAll : BatchCase (ℤ × ℤ) := {exBatch with shuffle := id, us := [.diagonals 3], os := [.diagonals (fun _ => false) (.int 100)]}

theorem exBatchAll_ok {idss : List (List Nat)} (h : ∀ ids ∈ idss, ∀ id ∈ ids, id = 0 ∨ id = 2) (h0 : ∃ ids ∈ idss, 0 ∈ ids) (h2 : ∃ ids ∈ idss, 2 ∈ ids) : exBatchAll.Ok idss where
  memE := (exBatch_ok h h0 h2).memE
  memZ := (exBatch_ok h h0 h2).memZ
  perm := List.Perm.refl
  args := (exBatch_ok h h0 h2).args
  calls := (exBatchBack_ok h h0 h2).calls
  good := fun ⟨a, c, _, hac⟩ => by simp [exBatchAll, exBatch] at hac

example := C110_counts exBatchAll exBatchBack [([.fin 3, .pinf], 2), ([.fin (5 / 2)], 0)] (exBatchAll_ok (by simp) (by simp) (by simp)) (exBatchBack_ok (by simp) (by simp) (by simp))
  ⟨rfl, rfl, rfl, rfl, rfl, rfl⟩ rfl rfl (by simp [exBatchAll]) (by simp [exBatchBack]) (fun _ => le_refl _)

example := C111_counts exBatchAll exBatchLong [(2, 2)] [] [([.fin 3, .pinf], 2), ([.fin (5 / 2)], 0)] (exBatchAll_ok (by simp) (by simp) (by simp)) (exBatchLong_ok (by simp) (by simp) (by simp))
  ⟨rfl, rfl, rfl, rfl, rfl, rfl⟩ rfl rfl (by simp [exBatchAll]) (by simp [exBatchLong]) (fun _ => le_refl _)

end Verif
