import Verif.Props.DataCounts
import Verif.Props.BatchContextual

/-!
# C123: profiles and counts can be read off the distance matrix

The same calculation with `DistanceMatrix`, `MatrixProfileLR`, `ThresholdCounter` and `ContextualMatrixProfile` consumers, at any moment.
-/

namespace Verif
open Spec
variable {α : Type}

/-- `v` is the smallest of the finite entries of a column `M` of `h` rows among those in `P`, and `i` is the row of one such entry; `+inf` if there is none. -/
def Spec.IsSmallestEntry (M : Nat → Fl ℝ) (h : Nat) (P : Nat → Prop) (v : Fl ℝ) (i : Int) : Prop :=
  (v = .pinf ∧ ∀ r < h, P r → ∀ x, M r ≠ .fin x) ∨ ∃ r < h, P r ∧ i = r ∧ M r = v ∧ ∃ x, v = .fin x ∧ ∀ r' < h, P r' → ∀ y, M r' = .fin y → x ≤ y

namespace BatchCase
variable {B : BatchCase α}

theorem ShowsMatrix.fin_iff {id : Nat} {p : DM ℝ} (h : B.ShowsMatrix id p) {r c : Nat} (hr : r < B.h) (hc : c < B.w) (x : ℝ) :
    p.m r c = .fin x ↔ B.done r c ∧ x = B.value id r c := by
  obtain ⟨h1, h2, h3⟩ := h.2.2 r hr c hc
  by_cases hd : B.done r c
  · rw [h1 hd]
    exact ⟨fun e => ⟨hd, (Fl.fin.inj e).symm⟩, fun e => by rw [e.2]⟩
  · refine ⟨fun e => ?_, fun e => absurd e.1 hd⟩
    by_cases hcol : B.column c
    · rw [(h2 hd hcol).1] at e
      exact absurd e (by simp)
    · rw [h3 hd hcol] at e
      exact absurd e (by simp)

theorem ShowsMatrix.smallest {id : Nat} {p : DM ℝ} (h : B.ShowsMatrix id p) {c : Nat} (hc : c < B.w) {P : Nat → Prop} {v : Fl ℝ} {i : Int}
    (hn : IsNearest (fun r => B.value id r c) B.h (fun r => B.done r c ∧ P r) v i) : IsSmallestEntry (fun r => p.m r c) B.h P v i := by
  rcases hn with ⟨rfl, hno⟩ | ⟨r, hr, ⟨hd, hp⟩, rfl, rfl, hmin⟩
  · exact .inl ⟨rfl, fun r hr hp x e => hno r hr ⟨((h.fin_iff hr hc x).mp e).1, hp⟩⟩
  · refine .inr ⟨r, hr, hp, rfl, (h.fin_iff hr hc _).mpr ⟨hd, rfl⟩, _, rfl, fun r' hr' hp' y e => ?_⟩
    obtain ⟨hd', rfl⟩ := (h.fin_iff hr' hc y).mp e
    exact hmin r' hr' ⟨hd', hp'⟩

end BatchCase

/-- **C123.** At any moment of a calculation by columns and diagonals, the entries of the matrix profile, the left and the right matrix profile that `MatrixProfileLR` consumers show are the
smallest finite entries of the columns of the matrices that `DistanceMatrix` consumers of the same generators show (left: of the rows up to the column, right: of those after it), and the
indices are rows of these entries. Partial: for Euclidean generators no two different subsequences at squared distance below `1e-15` if columns are calculated (`BatchCase.Ok`;
`C66_euclidean_nan`). -/
theorem C123_profile_partial (B : BatchCase α) (ids : List Nat) (hB : B.Ok (ids.map fun id => [id])) :
    ∃ ms ps, B.result DM.ops (ids.map fun id => (DM.new, [id])) = .ok ms ∧ B.result MP.ops (ids.map fun id => (MP.new, [id])) = .ok ps ∧
      List.Forall₂ (fun (d : DM ℝ × List Nat) (c : MP ℝ × List Nat) => d.2 = c.2 ∧ c.1.left.length = d.1.w ∧ c.1.right.length = d.1.w ∧
        ∀ j < d.1.w, ∃ (v l r : Fl ℝ) (i li ri : Int),
          (MP.merged c.1.left c.1.right)[j]? = some v ∧ (MP.mergedIdx c.1.left c.1.right c.1.leftIdx c.1.rightIdx)[j]? = some i ∧
          c.1.left[j]? = some l ∧ c.1.leftIdx[j]? = some li ∧ c.1.right[j]? = some r ∧ c.1.rightIdx[j]? = some ri ∧
          IsSmallestEntry (fun r => d.1.m r j) d.1.h (fun _ => True) v i ∧ IsSmallestEntry (fun r => d.1.m r j) d.1.h (fun r => r ≤ j) l li ∧
          IsSmallestEntry (fun r => d.1.m r j) d.1.h (fun r => j < r) r ri) ms ps := by
  obtain ⟨ms, h1, h2⟩ := C68_distance_matrix_partial B ids hB
  obtain ⟨ps, h3, h4⟩ := C67_profile_partial B.memE hB.memE B.memZ hB.memZ B.shuffle hB.perm B.π B.m B.s B.query B.nDim B.buffer B.kinds ids B.needed
    hB.args B.us B.os hB.calls hB.good
  refine ⟨ms, ps, h1, h3, ?_⟩
  rw [forall₂_iff_getElem?] at h2 h4 ⊢
  refine ⟨h4.1.trans h2.1.symm, fun n d c hn hn' => ?_⟩
  obtain ⟨hl, -⟩ := List.getElem?_eq_some_iff.mp hn
  obtain ⟨id, hid⟩ : ∃ id, ids[n]? = some id := ⟨ids[n]'(by rw [← h2.1]; exact hl), List.getElem?_eq_getElem _⟩
  obtain ⟨e1, e2⟩ := h2.2 n id d hid hn
  obtain ⟨f1, hP⟩ := h4.2 n id c hid hn'
  have len : ∀ {β : Type} {l : List β}, l.length = B.w → l.length = d.1.w := fun h => h.trans e2.2.1.symm
  refine ⟨e1.trans f1.symm, len hP.lengths.1, len hP.lengths.2, fun j hj => ?_⟩
  rw [e2.2.1] at hj
  rw [e2.1]
  obtain ⟨l, r, v, li, ri, i, a1, a2, a3, a4, a5, a6, b1, b2, b3⟩ := hP.entries j hj
  refine ⟨v, l, r, i, li, ri, a3, a6, a1, a4, a2, a5, e2.smallest hj ?_, e2.smallest hj b1, e2.smallest hj b2⟩
  have b3 : IsNearest (fun r => B.value id r j) B.h (fun r => B.done r j) v i := b3
  simpa only [and_true] using b3

open Classical in
/-- **C123** for `ThresholdCounter`: after any sequence of `calculate_diagonals` calls the count for a threshold is the number of entries of the column of the distance matrix that are at most
the threshold, and it is positive exactly if the entry of the matrix profile is a distance that is at most the threshold. In a self-join with a non-negative trivial match buffer. -/
theorem C123_counts (B : BatchCase α) (cs : List (List (Fl ℝ) × Nat)) (hB : B.Ok (cs.map fun c => [c.2])) (hus : ∀ op ∈ B.us, ∃ n, op = .diagonals n) (hb : B.query = none → 0 ≤ B.b) :
    ∃ ms ps ts, B.result DM.ops (cs.map fun c => (DM.new, [c.2])) = .ok ms ∧ B.result MP.ops (cs.map fun c => (MP.new, [c.2])) = .ok ps ∧
      B.result TC.ops (cs.map fun c => (TC.new c.1, [c.2])) = .ok ts ∧ ms.length = cs.length ∧ ps.length = cs.length ∧ ts.length = cs.length ∧
      ∀ (n : Nat) (thr : List (Fl ℝ)) (id : Nat) (d : DM ℝ × List Nat) (p : MP ℝ × List Nat) (c : TC ℝ × List Nat), cs[n]? = some (thr, id) → ms[n]? = some d → ps[n]? = some p →
        ts[n]? = some c → ∀ (t : Nat) (θ : Fl ℝ), thr[t]? = some θ → ∀ j < d.1.w,
          c.1.counts t j = ((Finset.range d.1.h).filter fun i => Fl.leF (d.1.m i j) θ = true).card ∧
          ∃ v, (MP.merged p.1.left p.1.right)[j]? = some v ∧ (0 < c.1.counts t j ↔ v ≠ .pinf ∧ Fl.leF v θ = true) := by
  have hids : B.Ok ((cs.map fun c => c.2).map fun id => [id]) := by simpa [List.map_map, Function.comp_def] using hB
  obtain ⟨ms, h1, h2⟩ := C68_distance_matrix_partial B _ hids
  obtain ⟨ms', ps, h1', h3, h4⟩ := C123_profile_partial B _ hids
  obtain rfl : ms = ms' := Except.ok.inj (h1.symm.trans h1')
  obtain ⟨ts, h5, h6⟩ := C69_diagonals B cs hB hus hb
  rw [forall₂_iff_getElem?] at h2 h4 h6
  have hlen : ms.length = cs.length := h2.1.trans (by simp)
  refine ⟨ms, ps, ts, by simpa [List.map_map, Function.comp_def] using h1, by simpa [List.map_map, Function.comp_def] using h3, h5, hlen, h4.1.trans hlen, h6.1, ?_⟩
  intro n thr id d p c hcs hd hp hc t θ ht j hj
  obtain ⟨-, e2⟩ := h2.2 n id d (by rw [List.getElem?_map, hcs]; rfl) hd
  obtain ⟨-, -, -, f4⟩ := h4.2 n d p hd hp
  obtain ⟨-, g2⟩ := h6.2 n _ c hcs hc
  obtain ⟨v, -, -, i, -, -, hv, -, -, -, -, -, hs, -, -⟩ := f4 j hj
  have hjw : j < B.w := e2.2.1 ▸ hj
  have entry : ∀ r < B.h, (decide (B.done r j) && Fl.leF (.fin (B.value id r j)) θ) = true ↔ Fl.leF (d.1.m r j) θ = true := by
    intro r hr
    rw [Bool.and_eq_true, decide_eq_true_iff]
    obtain ⟨k1, -, k3⟩ := e2.2.2 r hr j hjw
    by_cases hdn : B.done r j
    · rw [k1 hdn]
      exact ⟨fun h => h.2, fun h => ⟨hdn, h⟩⟩
    · rw [k3 hdn (by
        rintro ⟨a, e, hm, -⟩
        obtain ⟨n, hn⟩ := hus _ hm
        cases hn)]
      exact ⟨fun h => absurd h.1 hdn, fun h => absurd (le_antisymm (Fl.le_nan _) ((Fl.leF_iff _ _).mp h).1) ((Fl.leF_iff _ _).mp h).2⟩
  have count : c.1.counts t j = ((Finset.range d.1.h).filter fun i => Fl.leF (d.1.m i j) θ = true).card := by
    rw [g2 t θ ht j hjw, countP_range_card, e2.1]
    exact congrArg Finset.card (Finset.filter_congr fun r hr => entry r (Finset.mem_range.mp hr))
  refine ⟨count, v, hv, ?_⟩
  rw [count, Finset.card_pos]
  rw [e2.1] at hs ⊢
  constructor
  · rintro ⟨r, hr⟩
    rw [Finset.mem_filter, Finset.mem_range] at hr
    have hdn := ((entry r hr.1).mpr hr.2)
    rw [Bool.and_eq_true, decide_eq_true_iff] at hdn
    have hm : d.1.m r j = .fin (B.value id r j) := (e2.2.2 r hr.1 j hjw).1 hdn.1
    rcases hs with ⟨rfl, hno⟩ | ⟨r0, hr0, -, rfl, -, x, rfl, hmin⟩
    · exact absurd hm (hno r hr.1 trivial _)
    · refine ⟨by simp, ?_⟩
      obtain ⟨h7, h8⟩ := (Fl.leF_iff _ _).mp hdn.2
      exact (Fl.leF_iff _ _).mpr ⟨((Fl.fin_le_fin _ _).mpr (hmin r hr.1 trivial _ hm)).trans h7, h8⟩
  · rintro ⟨hne, hle⟩
    rcases hs with ⟨rfl, -⟩ | ⟨r0, hr0, -, -, hm, -⟩
    · exact absurd rfl hne
    · exact ⟨r0, by rw [Finset.mem_filter, Finset.mem_range]; exact ⟨hr0, by rw [show d.1.m r0 j = v from hm]; exact hle⟩⟩

/-- **C123** for `ContextualMatrixProfile`: at any moment the entry for a query context `i` and a series context `j` is the smallest of the finite entries that the distance matrix holds in
the rows of `i` and the columns of `j`, and the match indices are the position of such an entry; `+inf` and -1 if there is none. Partial like `C123_profile_partial`. -/
theorem C123_contextual_partial (B : BatchCase α) (cs : List (CtxArgs × CMPObj StaticMgr ℝ × Nat)) (hcs : ∀ c ∈ cs, c.1.Ok ∧ c.1.new = .ok c.2.1)
    (hB : B.Ok (cs.map fun c => [c.2.2])) :
    ∃ ms os, B.result DM.ops (cs.map fun c => (DM.new, [c.2.2])) = .ok ms ∧ B.result (CMP.ops StaticMgr.ops) (cs.map fun c => (c.2.1, [c.2.2])) = .ok os ∧
      ms.length = cs.length ∧ os.length = cs.length ∧
      ∀ (n : Nat) (A : CtxArgs) (o0 : CMPObj StaticMgr ℝ) (id : Nat) (d : DM ℝ × List Nat) (o : CMPObj StaticMgr ℝ × List Nat), cs[n]? = some (A, o0, id) → ms[n]? = some d →
        os[n]? = some o → d.2 = [id] ∧ o.2 = [id] ∧ ∃ p D Q S, o.1.st = some p ∧ p.Holds (numIds A.qctx) (numIds A.sctx) D Q S ∧
          ∀ i < numIds A.qctx, ∀ j < numIds A.sctx,
            (D i j = .pinf ∧ Q i j = -1 ∧ S i j = -1 ∧ ∀ r < d.1.h, ∀ c < d.1.w, InCtx A.qctx i r → InCtx A.sctx j c → ∀ x, d.1.m r c ≠ .fin x) ∨
            ∃ r < d.1.h, ∃ c < d.1.w, InCtx A.qctx i r ∧ InCtx A.sctx j c ∧ Q i j = r ∧ S i j = c ∧ d.1.m r c = D i j ∧ ∃ x, D i j = .fin x ∧
              ∀ r' < d.1.h, ∀ c' < d.1.w, InCtx A.qctx i r' → InCtx A.sctx j c' → ∀ y, d.1.m r' c' = .fin y → x ≤ y := by
  have hids : B.Ok ((cs.map fun c => c.2.2).map fun id => [id]) := by simpa [List.map_map, Function.comp_def] using hB
  obtain ⟨ms, h1, h2⟩ := C68_distance_matrix_partial B _ hids
  obtain ⟨os, h3, h4⟩ := C70_contextual_partial B cs hcs hB
  rw [forall₂_iff_getElem?] at h2 h4
  refine ⟨ms, os, by simpa [List.map_map, Function.comp_def] using h1, h3, h2.1.trans (by simp), h4.1, ?_⟩
  intro n A o0 id d o hn hd ho
  obtain ⟨e1, e2⟩ := h2.2 n id d (by rw [List.getElem?_map, hn]; rfl) hd
  obtain ⟨f1, p, D, Q, S, f2, f3, f4⟩ := h4.2 n _ o hn ho
  refine ⟨e1, f1, p, D, Q, S, f2, f3, fun i hi j hj => ?_⟩
  obtain ⟨lower, attained⟩ := f4 i hi j hj
  rw [e2.1, e2.2.1]
  rcases attained with ⟨a1, a2, a3⟩ | ⟨r, hr, c, hc, hdn, hi', hj', hv, ha, hb⟩
  · refine .inl ⟨a1, a2, a3, fun r hr c hc hi' hj' x e => ?_⟩
    have := lower r hr c hc ((e2.fin_iff hr hc x).mp e).1 hi' hj'
    rw [a1] at this
    exact absurd this (not_le.mpr (Fl.fin_lt_pinf _))
  · refine .inr ⟨r, hr, c, hc, hi', hj', ha, hb, ?_, _, hv, fun r' hr' c' hc' hi2 hj2 y e => ?_⟩
    · rw [hv]
      exact (e2.fin_iff hr hc _).mpr ⟨hdn, rfl⟩
    · obtain ⟨hd', rfl⟩ := (e2.fin_iff hr' hc' y).mp e
      have := lower r' hr' c' hc' hd' hi2 hj2
      rw [hv] at this
      exact (Fl.fin_le_fin _ _).mp this

/-! ### Concrete cases -/

example : ∃ o, exCtx.new = .ok o ∧ ∃ ms os, exBatch.result DM.ops [(DM.new, [2]), (DM.new, [0])] = .ok ms ∧
    exBatch.result (CMP.ops StaticMgr.ops) [(o, [2]), (o, [0])] = .ok os ∧ ms.length = 2 ∧ os.length = 2 := by
  obtain ⟨o, ho⟩ : ∃ o, exCtx.new = .ok o := ⟨_, rfl⟩
  obtain ⟨ms, os, h1, h2, h3, h4, -⟩ := C123_contextual_partial exBatch [(exCtx, o, 2), (exCtx, o, 0)] (by simpa using ⟨exCtx_ok, ho⟩) (exBatch_ok (by simp) (by simp) (by simp))
  exact ⟨o, ho, ms, os, h1, h2, h3, h4⟩

/-- A self-join with diagonals, an interrupt and columns. -/
example := C123_profile_partial exBatch [2, 0] (exBatch_ok (by simp) (by simp) (by simp))

/-- A join. -/
example := C123_profile_partial exJoin [2, 0] (exJoin_ok (by simp) (by simp) (by simp))

example := C123_counts exBatchDiagonals [([.fin 3, .pinf], 2), ([.fin (5 / 2)], 0)] (exBatchDiagonals_ok (by simp) (by simp) (by simp)) (by simp [exBatchDiagonals]) (fun _ => le_refl _)

example := C123_counts exJoin [([.fin 3, .pinf], 2), ([.fin (5 / 2)], 0)] (exJoin_ok (by simp) (by simp) (by simp)) (by simp [exJoin]) (by simp [exJoin])

end Verif
