import Verif.Props.FilteredContextual

/-!
# C96: multidimensional matrix profiles of data with holes

`MultidimensionalMatrixProfileLR` in batch and streaming calculations with generators that may be wrapped in filters.
-/

namespace Verif
open Spec
variable {α : Type}

/-- `e` = (value, row, dimensions): the value is the smallest mean of `k + 1` of `n` distances `f 0 r`, …, `f (n - 1) r` over the rows `r` with `P` and all choices of
`k + 1` different dimensions that are not marked (`mk`) for the row; row and dimensions attain it; `+inf`, -1 and -1s if there are none. -/
structure Spec.IsMarkedMin (n k : Nat) (P : Nat → Prop) (mk : Nat → Nat → Prop) (f : Nat → Nat → ℝ) (e : Fl ℝ × Int × List Int) : Prop where
  lower : ∀ r, P r → ∀ T, Channels n (k + 1) T → (∀ i ∈ T, ¬ mk i r) → e.1 ≤ .fin ((T.map fun i => f i r).sum / (k + 1))
  attained : (e = (.pinf, -1, List.replicate (k + 1) (-1)) ∧ ∀ r, P r → ∀ T, Channels n (k + 1) T → ∃ i ∈ T, mk i r) ∨
    ∃ r T, P r ∧ Channels n (k + 1) T ∧ (∀ i ∈ T, ¬ mk i r) ∧ e = (.fin ((T.map fun i => f i r).sum / (k + 1)), (r : Int), T.map fun i : Nat => (i : Int))

/-- The left, right and merged profile of a consumer of the distances `f i r c` (`i` < `n`), some of which are marked, for `w` places, the first of which is column
`first`: the pairs calculated so far are those with `done`. -/
structure Spec.ShowsMarked (n w first : Nat) (done : Nat → Nat → Prop) (mk : Nat → Nat → Nat → Prop) (f : Nat → Nat → Nat → ℝ) (p : MDMP ℝ) : Prop where
  left : ∀ k < n, ∀ c < w, ∃ e, p.left.read k c = some e ∧
    IsMarkedMin n k (fun r => done r (c + first) ∧ r ≤ c + first) (fun i r => mk i r (c + first)) (fun i r => f i r (c + first)) e
  right : ∀ k < n, ∀ c < w, ∃ e, p.right.read k c = some e ∧
    IsMarkedMin n k (fun r => done r (c + first) ∧ c + first < r) (fun i r => mk i r (c + first)) (fun i r => f i r (c + first)) e
  merged : ∀ k < n, ∀ c < w, ∃ e, p.readMerged k c = some e ∧
    IsMarkedMin n k (fun r => done r (c + first)) (fun i r => mk i r (c + first)) (fun i r => f i r (c + first)) e

/-! ### Means with `+inf` -/

theorem sum_pinf (l : List (Fl ℝ)) (hl : ∀ x ∈ l, x ≠ .nan ∧ x ≠ .ninf) (h : .pinf ∈ l) : Fl.sum l = .pinf := by
  have hne : ∀ l : List (Fl ℝ), (∀ x ∈ l, x ≠ .nan ∧ x ≠ .ninf) → Fl.sum l ≠ .nan ∧ Fl.sum l ≠ .ninf := by
    intro l
    induction l with
    | nil => intro _; exact ⟨by simp [Fl.sum], by simp [Fl.sum]⟩
    | cons x l ih =>
      intro h
      have h1 := h x (by simp)
      have h2 := ih fun y hy => h y (by simp [hy])
      rw [Fl.sum_cons]
      generalize Fl.sum l = y at h2 ⊢
      cases x <;> cases y <;> simp_all [Fl.add]
  induction l with
  | nil => cases h
  | cons x l ih =>
    rw [Fl.sum_cons]
    have h1 := hl x (by simp)
    have h2 := hne l fun y hy => hl y (by simp [hy])
    rcases List.mem_cons.mp h with rfl | h
    · generalize Fl.sum l = y at h2 ⊢
      cases y <;> simp_all [Fl.add]
    · rw [ih (fun y hy => hl y (by simp [hy])) h]
      cases x <;> simp_all [Fl.add]

/-- Values of which some are marked. -/
theorem MultiMinV.marked {ids : List Nat} {V : Nat → Nat → Nat → Fl ℝ} {k c : Nat} {P : Nat → Prop} {e : Fl ℝ × Int × List Int} (h : MultiMinV ids V k c P e)
    (mk : Nat → Nat → Prop) (F : Nat → Nat → ℝ) (h1 : ∀ r, P r → ∀ id ∈ ids, mk id r → V id r c = .pinf) (h2 : ∀ r, P r → ∀ id ∈ ids, ¬ mk id r → V id r c = .fin (F id r)) :
    IsMarkedMin ids.length k P (fun i r => mk (ids.getD i 0) r) (fun i r => F (ids.getD i 0) r) e := by
  have hmem : ∀ T, Channels ids.length (k + 1) T → ∀ i ∈ T, ids.getD i 0 ∈ ids := by
    intro T hT i hi
    rw [List.getD_eq_getElem?_getD, List.getElem?_eq_getElem (hT.lt i hi)]
    exact List.getElem_mem _
  have hmean : ∀ r T, P r → Channels ids.length (k + 1) T → chanMean (ids.map fun id => V id r c) T = Fl.div (Fl.sum (T.map fun i => V (ids.getD i 0) r c)) (.fin ((k + 1 : Nat) : ℝ)) := by
    intro r T hr hT
    unfold chanMean chan
    rw [hT.length]
    congr 2
    exact List.map_congr_left fun i hi => getD_map_lt _ _ _ (hT.lt i hi)
  have hfree : ∀ r T, P r → Channels ids.length (k + 1) T → (∀ i ∈ T, ¬ mk (ids.getD i 0) r) →
      chanMean (ids.map fun id => V id r c) T = .fin ((T.map fun i => F (ids.getD i 0) r).sum / (k + 1)) := by
    intro r T hr hT hm
    have := hmean r T hr hT
    rw [← chanMean_fin ids (fun id => F id r) k T hT]
    unfold chanMean chan
    congr 2
    refine List.map_congr_left fun i hi => ?_
    rw [getD_map_lt _ _ _ (hT.lt i hi), getD_map_lt _ _ _ (hT.lt i hi)]
    exact h2 r hr _ (hmem T hT i hi) (hm i hi)
  have hinf : ∀ r T, P r → Channels ids.length (k + 1) T → (∃ i ∈ T, mk (ids.getD i 0) r) → chanMean (ids.map fun id => V id r c) T = .pinf := by
    rintro r T hr hT ⟨i, hi, hm⟩
    rw [hmean r T hr hT, sum_pinf]
    · have : (0 : ℝ) < ((k + 1 : Nat) : ℝ) := by positivity
      simp [Fl.div]
      linarith
    · intro x hx
      obtain ⟨j, hj, rfl⟩ := List.mem_map.mp hx
      by_cases hmj : mk (ids.getD j 0) r
      · rw [h1 r hr _ (hmem T hT j hj) hmj]; simp
      · rw [h2 r hr _ (hmem T hT j hj) hmj]; simp
    · exact List.mem_map.mpr ⟨i, hi, h1 r hr _ (hmem T hT i hi) hm⟩
  have hlow : ∀ r, P r → ∀ T, Channels ids.length (k + 1) T → (∀ i ∈ T, ¬ mk (ids.getD i 0) r) → e.1 ≤ .fin ((T.map fun i => F (ids.getD i 0) r).sum / (k + 1)) := by
    intro r hr T hT hm
    exact (h.1 r hr T hT).trans_eq (hfree r T hr hT hm)
  refine ⟨hlow, ?_⟩
  rcases h.2 with a1 | ⟨r, T, hr, hT, a1, a2⟩
  · left
    refine ⟨a1, fun r hr T hT => ?_⟩
    by_contra hno
    have := hlow r hr T hT fun i hi hm => hno ⟨i, hi, hm⟩
    rw [a1] at this
    revert this
    simp
  · right
    have hm : ∀ i ∈ T, ¬ mk (ids.getD i 0) r := by
      intro i hi hm
      rw [a1, hinf r T hr hT ⟨i, hi, hm⟩] at a2
      exact absurd a2 (lt_irrefl _)
    rw [hfree r T hr hT hm] at a1
    exact ⟨r, T, hr, hT, hm, a1⟩

theorem Spec.ShowsWith.marked {ids : List Nat} {w first : Nat} {done : Nat → Nat → Prop} {V : Nat → Nat → Nat → Fl ℝ} {p : MDMP ℝ}
    (h : ShowsWith ids.length w first done (MultiMinV ids V) p) (mk : Nat → Nat → Nat → Prop) (F : Nat → Nat → Nat → ℝ)
    (h1 : ∀ r c, done r c → ∀ id ∈ ids, mk id r c → V id r c = .pinf) (h2 : ∀ r c, done r c → ∀ id ∈ ids, ¬ mk id r c → V id r c = .fin (F id r c)) :
    ShowsMarked ids.length w first done (fun i => mk (ids.getD i 0)) (fun i => F (ids.getD i 0)) p := by
  have := h.imp (J := fun k c P e => IsMarkedMin ids.length k P (fun i r => mk (ids.getD i 0) r c) (fun i r => F (ids.getD i 0) r c) e)
    fun k hk c P e hP hI => hI.marked (fun id r => mk id r c) (fun id r => F id r c) (fun r hr => h1 r c (hP r hr)) fun r hr => h2 r c (hP r hr)
  exact ⟨this.left, this.right, this.merged⟩

theorem filteredValue_nonneg (π : Nat → α → Fl ℝ) (m : Nat) (kinds : List (FKind × Nat)) (id : Nat) (a b : List α) : 0 ≤ filteredValue π m kinds id a b := by
  unfold filteredValue
  split
  · rename_i k ch _
    unfold FKind.value
    generalize k.inner = k
    cases k
    · exact Real.sqrt_nonneg _
    · exact Real.sqrt_nonneg _
  · exact le_rfl

/-- **C96, batch.** `MultidimensionalMatrixProfileLR` consumers of any generators (`ids`, at least one) of an `AnytimeCalculator` with any channels, with and without filters,
after any sequence of (partial, possibly interrupted) `calculate_diagonals` and `calculate_columns` calls: no call raises; row `k` of the profiles holds for every
subsequence of the series the smallest mean of `k + 1` of the distances over the pairs calculated so far and over all choices of `k + 1` generators none of which
marks a point of the pair, with the row and the generators (numbers within `ids`) that attain it; `+inf` and -1 if there is none. Partial: if diagonals are calculated
the query may not be longer than the series (`C71_long_query_raises`); Euclidean generators when columns are calculated as in `C96_multi_wrong`. -/
theorem C96_batch_partial (B : FilteredBatch α) (argsort : List (Fl ℝ) → List Nat) (has : ∀ l, IsArgsort l (argsort l)) (cs : List (MDObj ℝ × List Nat))
    (hcs : ∀ c ∈ cs, c.1.New ∧ c.2 ≠ []) (hB : B.Fine exactMode (cs.map (·.2))) (hlong : ∀ n, .diagonals n ∈ B.us → B.h ≤ B.w) :
    ∃ cons', B.result (MDMP.ops argsort (FKind.ops B.memE B.memZ)) cs = .ok cons' ∧
      List.Forall₂ (fun c o => o.2 = c.2 ∧ ∃ p, o.1.st = some p ∧
        ShowsMarked c.2.length B.w 0 (fun r c => r < B.h ∧ B.done r c) (fun i => B.marked (c.2.getD i 0)) (fun i => B.value (c.2.getD i 0)) p) cs cons' := by
  have := FilteredBatch.exactConsumers (B := B) (MDMP.ops argsort) (fun _ => rfl) cs (fun c => c) hB (fun c o => ∃ p, o.st = some p ∧
    ShowsMarked c.2.length B.w 0 (fun r c => r < B.h ∧ B.done r c) (fun i => B.marked (c.2.getD i 0)) (fun i => B.value (c.2.getD i 0)) p) ?_
  · rwa [List.map_id'] at this
  rintro ⟨o, ids⟩ hm
  obtain ⟨hnew, hne⟩ := hcs _ hm
  have hids : ∀ id ∈ ids, id < B.kinds.length := fun id h => hB.toOk.id_lt (List.mem_map_of_mem (f := Prod.snd) hm) h
  have hval : ∀ id ∈ ids, ∀ r c, B.done r c → ¬ B.marked id r c → B.masked id r c = .fin (B.value id r c) := by
    intro id hid r c hd hm
    unfold FilteredBatch.masked
    rw [pairValue_far (hB.toOk.done_far hd)]
    exact filteredDist_value (hids id hid) hm
  have hmark : ∀ id r c, B.marked id r c → B.masked id r c = .pinf := by
    intro id r c h
    unfold FilteredBatch.masked pairValue
    split
    · rfl
    · exact filteredDist_marked h
  obtain ⟨p0, p', e1, e2, p, e3, e4⟩ := MDMP.batch_fed argsort has (FKind.ops B.memE B.memZ) hnew hne hB.toOk.w_pos (fun id hid => hB.toOk.cells id) (fun id hid r c => by
    refine ⟨?_, FilteredBatch.masked_ne_nan (hids id hid) r c⟩
    unfold FilteredBatch.masked pairValue
    split
    · exact (Fl.le_pinf_iff _).mpr (by simp)
    · by_cases hm : B.marked id r c
      · exact ((Fl.le_pinf_iff _).mpr (by simp)).trans_eq (filteredDist_marked (m := B.m) hm).symm
      · exact ((Fl.fin_le_fin _ _).mpr (filteredValue_nonneg _ _ _ _ _ _)).trans_eq (filteredDist_value (hids id hid) hm).symm) hlong
  exact ⟨p0, p', e1, e2, p, e3, e4.marked B.marked B.value (fun r c _ id _ h => hmark id r c h) fun r c hd id hid h => hval id hid r c hd.2 h⟩

/-- **C96, batch, z-normalised**: nothing is required of the data. -/
theorem C96_batch_znorm (B : FilteredBatch α) (argsort : List (Fl ℝ) → List Nat) (has : ∀ l, IsArgsort l (argsort l)) (cs : List (MDObj ℝ × List Nat))
    (hcs : ∀ c ∈ cs, c.1.New ∧ c.2 ≠ []) (hB : B.Ok (cs.map (·.2))) (hz : ∀ k ∈ B.kinds, ∃ noise scale, k.1.inner = .znorm noise scale)
    (hlong : ∀ n, .diagonals n ∈ B.us → B.h ≤ B.w) :
    ∃ cons', B.result (MDMP.ops argsort (FKind.ops B.memE B.memZ)) cs = .ok cons' ∧
      List.Forall₂ (fun c o => o.2 = c.2 ∧ ∃ p, o.1.st = some p ∧
        ShowsMarked c.2.length B.w 0 (fun r c => r < B.h ∧ B.done r c) (fun i => B.marked (c.2.getD i 0)) (fun i => B.value (c.2.getD i 0)) p) cs cons' :=
  C96_batch_partial B argsort has cs hcs (hB.fine_znorm hz) hlong

/-- **C96, streaming.** `MultidimensionalMatrixProfileLR` consumers of any generators (`ids`, at least one) of a `StreamingCalculator`, with and without filters, after any
sequence of `append_series`, `append_query` and (possibly interrupted) `calculate_columns` calls: no call raises; row `k` of the profiles holds for every subsequence in
the series window the smallest mean of `k + 1` of the distances over the pairs calculated so far, also those whose row has left the query window, and over all choices
of `k + 1` generators none of which marks a point of the pair, with the stream position of the row and the generators (numbers within `ids`) that attain it; `+inf` and
-1 if there is none. Partial: Euclidean generators as in `C96_multi_wrong`. -/
theorem C96_streaming_partial (S : FilteredStream α) (argsort : List (Fl ℝ) → List Nat) (has : ∀ l, IsArgsort l (argsort l)) (cs : List (MDObj ℝ × List Nat))
    (hcs : ∀ c ∈ cs, c.1.New ∧ c.2 ≠ []) (hS : S.Fine exactMode (cs.map (·.2))) :
    ∃ cons', S.result (MDMP.ops argsort (FKind.ops S.memE S.memZ)) cs = .ok cons' ∧
      List.Forall₂ (fun c o => o.2 = c.2 ∧ ∃ p, o.1.st = some p ∧
        ShowsMarked c.2.length S.w (S.last.s.length - S.N) S.done (fun i => S.markedAt (c.2.getD i 0)) (fun i => S.valueAt (c.2.getD i 0)) p) cs cons' := by
  have := FilteredStream.exactConsumers (S := S) (MDMP.ops argsort) (fun _ => rfl) cs (fun c => c) hS (fun c o => ∃ p, o.st = some p ∧
    ShowsMarked c.2.length S.w (S.last.s.length - S.N) S.done (fun i => S.markedAt (c.2.getD i 0)) (fun i => S.valueAt (c.2.getD i 0)) p) ?_
  · rwa [List.map_id'] at this
  rintro ⟨o, ids⟩ hm
  obtain ⟨hnew, hne⟩ := hcs _ hm
  have hids : ∀ id ∈ ids, id < S.kinds.length := fun id h => hS.toOk.id_lt (List.mem_map_of_mem (f := Prod.snd) hm) h
  have hdist : ∀ id ∈ ids, ∀ x y, S.dist id x y ≠ .ninf ∧ S.dist id x y ≠ .nan := by
    intro id hid x y
    refine ⟨?_, filteredDist_ne_nan S.π S.m S.kinds id (hids id hid) x y⟩
    unfold FilteredStream.dist
    by_cases h : filteredMarked S.π S.kinds id x ∨ filteredMarked S.π S.kinds id y
    · rw [filteredDist_marked h]; simp
    · rw [filteredDist_value (hids id hid) h]; simp
  obtain ⟨p0, p', e1, e2, p, e3, e4⟩ := MDMP.stream_fed argsort has (FKind.ops S.memE S.memZ) (b := S.b) (D := S.dist) hnew hne hS.args.pos hS.args.series
    hS.args.query hdist hS.valid (S.h : Int)
  refine ⟨p0, p', e1, e2, p, e3, e4.marked S.markedAt S.valueAt (fun r c hd id hid h => ?_) fun r c hd id hid h => ?_⟩ <;>
  · unfold MSt.cell
    rw [if_neg hd.2]
    first
    | exact filteredDist_marked h
    | exact filteredDist_value (hids id hid) h

/-! ### Concrete cases -/

/-- C96 on a concrete calculation: a consumer of generators 2 and 0 (with holes in channel 1) and one of all three. -/
example : ∃ a b, exFilteredBatch.result (MDMP.ops exArgsort (FKind.ops exFilteredBatch.memE exFilteredBatch.memZ)) [(exMDObj ℝ, [2, 0]), (exMDObj ℝ, [0, 1, 2])] =
    .ok [(a, [2, 0]), (b, [0, 1, 2])] := by
  obtain ⟨cons', h1, h2⟩ := C96_batch_partial exFilteredBatch exArgsort exArgsort_ok [(exMDObj ℝ, [2, 0]), (exMDObj ℝ, [0, 1, 2])] (by simp [exMDObj_new])
    (exFilteredBatch_fine (by simp) (by intro id hid; simp; omega)) (fun _ _ => by
      simp [exFilteredBatch, FilteredBatch.h, FilteredBatch.w, FilteredBatch.q, FilteredBatch.s])
  cases h2 with
  | @cons _ x _ _ p1 h2 => cases h2 with
    | @cons _ y _ _ p2 h2 => cases h2 with
      | nil =>
        obtain ⟨a, _⟩ := x
        obtain ⟨b, _⟩ := y
        obtain ⟨rfl, p1⟩ := p1
        obtain ⟨rfl, p2⟩ := p2
        exact ⟨a, b, h1⟩

example : ∃ a b, exFilteredStream.result (MDMP.ops exArgsort (FKind.ops exFilteredStream.memE exFilteredStream.memZ)) [(exMDObj ℝ, [2, 0]), (exMDObj ℝ, [0, 1, 2])] =
    .ok [(a, [2, 0]), (b, [0, 1, 2])] := by
  obtain ⟨cons', h1, h2⟩ := C96_streaming_partial exFilteredStream exArgsort exArgsort_ok [(exMDObj ℝ, [2, 0]), (exMDObj ℝ, [0, 1, 2])] (by simp [exMDObj_new])
    (exFilteredStream_fine (by simp) (by intro id hid; simp; omega))
  cases h2 with
  | @cons _ x _ _ p1 h2 => cases h2 with
    | @cons _ y _ _ p2 h2 => cases h2 with
      | nil =>
        obtain ⟨a, _⟩ := x
        obtain ⟨b, _⟩ := y
        obtain ⟨rfl, p1⟩ := p1
        obtain ⟨rfl, p2⟩ := p2
        exact ⟨a, b, h1⟩

/-- Merged values, rows and dimensions of a consumer of two filtered generators with squared distances, `m = 1`. -/
def exMarkedMultiRun (series : List (List (Fl ℚ))) (query : Option (List (List (Fl ℚ)))) (calls : List Anytime.Op) : Except PyErr (List (List (Option (Fl ℚ × Int × List Int)))) :=
  (batchAll (MDMP.ops exArgsort (Filter.Batch.ops (Eucl.genOps zeroMem (fun x : ℚ => x)))) List.reverse
    ([0, 1].map fun ch => (fun m s q => Filter.prepare (Eucl.prepare zeroMem) (fun l _ => l.map fun x => !x.isFinite) m.toNat s q, ch)) [(exMDObj ℚ, [1, 0])] [0, 1] 1
      series query (some 0) calls).map fun l => l.map fun c => match c.1.st with
      | none => []
      | some p => (List.range 2).flatMap fun k => (List.range 2).map fun c => p.readMerged k c

set_option synthInstance.maxSize 1000 in
/-- Channel 0 of the series and channel 1 of the query contain a NaN: no pair of rows and columns has two unmarked dimensions for column 0; for column 1 it is row 1. -/
example : ([.diagonals (fun _ => false) (.float (.fin 1)), .columns (fun _ => false) none (.float (.fin 1))] : List Anytime.Op).map (fun op =>
      exMarkedMultiRun [[.nan, .fin 5], [.fin 2, .fin 0]] (some [[.fin 4, .fin 7], [.nan, .fin 1]]) [op]) =
    [.ok [[some (.fin 1, 1, [0]), some (.fin 1, 0, [1]), some (.pinf, -1, [-1, -1]), some (.fin (5 / 2), 1, [0, 1])]],
     .ok [[some (.fin 1, 1, [0]), some (.fin 1, 0, [1]), some (.pinf, -1, [-1, -1]), some (.fin (5 / 2), 1, [0, 1])]]] := by
  decide +kernel

set_option synthInstance.maxSize 1000 in
/-- Why C96 is partial for Euclidean generators: both channels of the series are 1e-8 5, of the query NaN 5, `m = 1`, squares in place of distances. By columns the
wrapped generators compare 1e-8 to the 0 that stands for the NaN, and the error spoils the next column: the equal points 5 and 5 are not found. By diagonals they are. -/
theorem C96_multi_wrong : ([.columns (fun _ => false) none (.float (.fin 1)), .diagonals (fun _ => false) (.float (.fin 1))] : List Anytime.Op).map (fun op =>
      exMarkedMultiRun [[.fin (1 / 100000000), .fin 5], [.fin (1 / 100000000), .fin 5]] (some [[.nan, .fin 5], [.nan, .fin 5]]) [op]) =
    [.ok [[some (.fin ((5 - 1 / 100000000) ^ 2), 1, [0]), some (.pinf, -1, [-1]), some (.fin ((5 - 1 / 100000000) ^ 2), 1, [0, 1]), some (.pinf, -1, [-1, -1])]],
     .ok [[some (.fin ((5 - 1 / 100000000) ^ 2), 1, [0]), some (.fin 0, 1, [0]), some (.fin ((5 - 1 / 100000000) ^ 2), 1, [0, 1]), some (.fin 0, 1, [0, 1])]]] := by
  decide +kernel

/-- `C96_batch_znorm`. -/
example := C96_batch_znorm (exFilteredZ exFilteredBatch.us exFilteredBatch.os) exArgsort exArgsort_ok [(exMDObj ℝ, [1, 0]), (exMDObj ℝ, [0])] (by simp [exMDObj_new])
  (exFilteredZ_ok exBatch_calls (by simp) (by intro id hid; simp; omega)) (exFilteredZ_znorm _ _) (fun _ _ => by
      simp [exFilteredZ, exFilteredBatch, FilteredBatch.h, FilteredBatch.w, FilteredBatch.q])

end Verif
