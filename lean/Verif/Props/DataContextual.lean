import Verif.Props.Growth
import Verif.Props.BatchContextual

/-!
# C104 and C111 for `ContextualMatrixProfile`

A calculation next to one with series and query, and the contexts of both, exchanged, and next to one on longer data.
-/

namespace Verif
open Spec
variable {α : Type}

namespace BatchCase
variable {B B' : BatchCase α}

theorem IsContextMin.swap_le (hsw : B.Swapped B') {idss : List (List Nat)} (hB' : B'.Any idss) (hc' : B'.Complete) {id : Nat} (hid : id < B.kinds.length) {ql sl : List Ctx} {i j : Int}
    {v v' : Fl ℝ} {a b a' b' : Int} (h : B.IsContextMin id ql sl i j v a b) (h' : B'.IsContextMin id sl ql j i v' a' b') : v' ≤ v := by
  rcases h.attained with ⟨rfl, -, -⟩ | ⟨r, hr, c, hc, -, hi, hj, rfl, -, -⟩
  · rcases h'.attained with ⟨rfl, -, -⟩ | ⟨r, hr, c, hc, -, hi, hj, rfl, -, -⟩
    · exact le_refl _
    · exact (Fl.fin_lt_pinf _).le
  · have hn : B'.query ≠ none := by rw [hsw.query']; simp
    rw [hsw.height] at hr
    rw [hsw.width] at hc
    have := h'.lower c hc r hr ((hB'.complete hc' c r hc hr).mpr fun e => absurd e hn) hj hi
    rwa [hsw.value hid r c] at this

theorem IsContextMin.more_le {t u : List α} (hex : B.Extended B' t u) {idss idss' : List (List Nat)} (hB : B.Any idss) (hB' : B'.Any idss') (hc : B.Complete) (hc' : B'.Complete) {id : Nat}
    {ql sl : List Ctx} {i j : Int} {v v' : Fl ℝ} {a b a' b' : Int} (h : B.IsContextMin id ql sl i j v a b) (h' : B'.IsContextMin id ql sl i j v' a' b') : v' ≤ v := by
  rcases h.attained with ⟨rfl, -, -⟩ | ⟨r, hr, c, hw, hd, hi, hj, rfl, -, -⟩
  · rcases h'.attained with ⟨rfl, -, -⟩ | ⟨r, hr, c, hc, -, hi, hj, rfl, -, -⟩
    · exact le_refl _
    · exact (Fl.fin_lt_pinf _).le
  · have hr' := lt_of_lt_of_le hr hex.height
    have hw' := lt_of_lt_of_le hw hex.width
    have hap := (hB.complete hc r c hr hw).mp hd
    have := h'.lower r hr' c hw' ((hB'.complete hc' r c hr' hw').mpr fun e => by rw [hex.band]; exact hap (hex.none.mp e)) hi hj
    rwa [hex.value hB.args.pos id hr hw] at this

end BatchCase

/-- **C104** for `ContextualMatrixProfile`: if series and query and also the contexts of both are exchanged, and all diagonals are calculated, the contextual matrix is transposed, and the
match indices that the second calculation reports for an entry are, the other way round, the position of a pair with this distance in the contexts of the first. Partial, like the theorems on
which it rests: for Euclidean generators no two different subsequences at squared distance below `1e-15` if columns are calculated (`BatchCase.Ok`; `C66_euclidean_nan`). -/
theorem C104_contextual_partial (B B' : BatchCase α) (cs cs' : List (CtxArgs × CMPObj StaticMgr ℝ × Nat)) (hcs : ∀ c ∈ cs, c.1.Ok ∧ c.1.new = .ok c.2.1)
    (hcs' : ∀ c ∈ cs', c.1.Ok ∧ c.1.new = .ok c.2.1) (hx : List.Forall₂ (fun c c' => c'.1.qctx = c.1.sctx ∧ c'.1.sctx = c.1.qctx ∧ c'.2.2 = c.2.2) cs cs')
    (hB : B.Ok (cs.map fun c => [c.2.2])) (hB' : B'.Ok (cs'.map fun c => [c.2.2])) (hsw : B.Swapped B') (hc : B.Complete) (hc' : B'.Complete) :
    ∃ os os', B.result (CMP.ops StaticMgr.ops) (cs.map fun c => (c.2.1, [c.2.2])) = .ok os ∧
      B'.result (CMP.ops StaticMgr.ops) (cs'.map fun c => (c.2.1, [c.2.2])) = .ok os' ∧ os.length = cs.length ∧ os'.length = cs.length ∧
      ∀ (n : Nat) (A : CtxArgs) (o0 : CMPObj StaticMgr ℝ) (id : Nat) (o o' : CMPObj StaticMgr ℝ × List Nat), cs[n]? = some (A, o0, id) → os[n]? = some o → os'[n]? = some o' →
        o.2 = [id] ∧ o'.2 = [id] ∧ ∃ p p' D Q S D' Q' S', o.1.st = some p ∧ o'.1.st = some p' ∧ p.Holds (numIds A.qctx) (numIds A.sctx) D Q S ∧
          p'.Holds (numIds A.sctx) (numIds A.qctx) D' Q' S' ∧
          ∀ i < numIds A.qctx, ∀ j < numIds A.sctx, D' j i = D i j ∧ B.IsContextMin id A.qctx A.sctx i j (D i j) (S' j i) (Q' j i) := by
  obtain ⟨os, h1, h2⟩ := C70_contextual_partial B cs hcs hB
  obtain ⟨os', h3, h4⟩ := C70_contextual_partial B' cs' hcs' hB'
  rw [forall₂_iff_getElem?] at h2 h4 hx
  refine ⟨os, os', h1, h3, h2.1, h4.1.trans hx.1, fun n A o0 id o o' hn ho ho' => ?_⟩
  obtain ⟨hl', -⟩ := List.getElem?_eq_some_iff.mp ho'
  obtain ⟨⟨A', o0', id'⟩, hn'⟩ : ∃ c', cs'[n]? = some c' := ⟨cs'[n]'(by rw [← h4.1]; exact hl'), List.getElem?_eq_getElem _⟩
  obtain ⟨x1, x2, rfl⟩ : A'.qctx = A.sctx ∧ A'.sctx = A.qctx ∧ id' = id := hx.2 n _ _ hn hn'
  obtain ⟨e1, p, D, Q, S, e2, e3, e4⟩ := h2.2 n _ o hn ho
  obtain ⟨f1, p', D', Q', S', f2, f3, f4⟩ := h4.2 n _ o' hn' ho'
  have hid : id' < B.kinds.length := hB.id_lt (List.mem_map_of_mem (f := fun c : CtxArgs × CMPObj StaticMgr ℝ × Nat => [c.2.2]) (List.mem_of_getElem? hn)) (by simp)
  simp only [x1, x2] at f3 f4
  refine ⟨e1, f1, p, p', D, Q, S, D', Q', S', e2, f2, e3, f3, fun i hi j hj => ?_⟩
  have g := e4 i hi j hj
  have g' := f4 j hj i hi
  have eq : D' j i = D i j := le_antisymm (g.swap_le hsw hB'.toAny hc' hid g') (g'.swap_le hsw.symm hB.toAny hc (by rw [hsw.kinds]; exact hid) g)
  refine ⟨eq, g.lower, ?_⟩
  rcases g'.attained with ⟨a1, a2, a3⟩ | ⟨r, hr, c, hc2, -, hi', hj', hv, ha, hb⟩
  · exact .inl ⟨eq ▸ a1, a3, a2⟩
  · have hn1 : B.query ≠ none := by rw [hsw.query]; simp
    rw [← hsw.width] at hr
    rw [← hsw.height] at hc2
    exact .inr ⟨c, hc2, r, hr, (hB.complete hc c r hc2 hr).mpr fun e => absurd e hn1, hj', hi', by rw [← eq, hv, hsw.value hid c r], hb, ha⟩

/-- **C111** for `ContextualMatrixProfile`: points added at the end of the series and (in a join) of the query make no entry of the contextual matrix larger; entries whose contexts do not reach
beyond the shorter distance matrix stay the same. Partial like `C104_contextual_partial`. -/
theorem C111_contextual_partial (B B' : BatchCase α) (t u : List α) (cs : List (CtxArgs × CMPObj StaticMgr ℝ × Nat)) (hcs : ∀ c ∈ cs, c.1.Ok ∧ c.1.new = .ok c.2.1)
    (hB : B.Ok (cs.map fun c => [c.2.2])) (hB' : B'.Ok (cs.map fun c => [c.2.2])) (hex : B.Extended B' t u) (hc : B.Complete) (hc' : B'.Complete) :
    ∃ os os', B.result (CMP.ops StaticMgr.ops) (cs.map fun c => (c.2.1, [c.2.2])) = .ok os ∧
      B'.result (CMP.ops StaticMgr.ops) (cs.map fun c => (c.2.1, [c.2.2])) = .ok os' ∧ os.length = cs.length ∧ os'.length = cs.length ∧
      ∀ (n : Nat) (A : CtxArgs) (o0 : CMPObj StaticMgr ℝ) (id : Nat) (o o' : CMPObj StaticMgr ℝ × List Nat), cs[n]? = some (A, o0, id) → os[n]? = some o → os'[n]? = some o' →
        o.2 = [id] ∧ o'.2 = [id] ∧ ∃ p p' D Q S D' Q' S', o.1.st = some p ∧ o'.1.st = some p' ∧ p.Holds (numIds A.qctx) (numIds A.sctx) D Q S ∧
          p'.Holds (numIds A.qctx) (numIds A.sctx) D' Q' S' ∧
          ∀ i < numIds A.qctx, ∀ j < numIds A.sctx, D' i j ≤ D i j ∧
            ((∀ r : Nat, InCtx A.qctx i r → r < B.h) → (∀ c : Nat, InCtx A.sctx j c → c < B.w) → D' i j = D i j) := by
  obtain ⟨os, h1, h2⟩ := C70_contextual_partial B cs hcs hB
  obtain ⟨os', h3, h4⟩ := C70_contextual_partial B' cs hcs hB'
  rw [forall₂_iff_getElem?] at h2 h4
  refine ⟨os, os', h1, h3, h2.1, h4.1, fun n A o0 id o o' hn ho ho' => ?_⟩
  obtain ⟨e1, p, D, Q, S, e2, e3, e4⟩ := h2.2 n _ o hn ho
  obtain ⟨f1, p', D', Q', S', f2, f3, f4⟩ := h4.2 n _ o' hn ho'
  refine ⟨e1, f1, p, p', D, Q, S, D', Q', S', e2, f2, e3, f3, fun i hi j hj => ?_⟩
  have g := e4 i hi j hj
  have g' := f4 i hi j hj
  have le := g.more_le hex hB.toAny hB'.toAny hc hc' g'
  refine ⟨le, fun hrow hcol => le_antisymm le ?_⟩
  rcases g'.attained with ⟨a1, -, -⟩ | ⟨r, hr, c, hw, hd, hi', hj', hv, -, -⟩
  · rw [a1]
    rcases g.attained with ⟨b1, -, -⟩ | ⟨r, hr, c, hw, hd, -, -, hv, -, -⟩
    · rw [b1]
    · rw [hv]
      exact (Fl.fin_lt_pinf _).le
  · have hr2 := hrow r hi'
    have hw2 := hcol c hj'
    have hap := (hB'.complete hc' r c hr hw).mp hd
    have := g.lower r hr2 c hw2 ((hB.complete hc r c hr2 hw2).mpr fun e => by rw [← hex.band]; exact hap (hex.none.mpr e)) hi' hj'
    rwa [← hex.value hB.args.pos id hr2 hw2, ← hv] at this

/-! ### Concrete cases -/

example : ∃ o, exCtx.new = .ok o ∧ ∃ os os', exBatch.result (CMP.ops StaticMgr.ops) [(o, [2]), (o, [0])] = .ok os ∧
    exBatchLong.result (CMP.ops StaticMgr.ops) [(o, [2]), (o, [0])] = .ok os' ∧ os.length = 2 ∧ os'.length = 2 := by
  obtain ⟨o, ho⟩ : ∃ o, exCtx.new = .ok o := ⟨_, rfl⟩
  obtain ⟨os, os', h1, h2, h3, h4, -⟩ := C111_contextual_partial exBatch exBatchLong _ _ [(exCtx, o, 2), (exCtx, o, 0)] (by simpa using ⟨exCtx_ok, ho⟩)
    (exBatch_ok (by simp) (by simp) (by simp)) (exBatchLong_ok (by simp) (by simp) (by simp)) exBatchLong_extended rfl rfl
  exact ⟨o, ho, os, os', h1, h2, h3, h4⟩

/-- The contexts of `exCtx` exchanged. -/
def exCtxSwapped : CtxArgs := ⟨[.inl ⟨1, 3, 1⟩], some [.inl ⟨0, 2, 1⟩, .inr [⟨1, 2, 1⟩, ⟨3, 9, 1⟩]], [0, 1, 2], [0, 1, 2], 1, [[]], [[]], [[]]⟩

theorem exCtxSwapped_ok : exCtxSwapped.Ok := by
  have h : exCtxSwapped.qctx = [⟨0, 2, 0⟩, ⟨1, 2, 1⟩, ⟨3, 9, 1⟩] := by decide
  have key : ∀ f : Ctx → Int, f ⟨0, 2, 0⟩ ≤ f ⟨1, 2, 1⟩ → f ⟨1, 2, 1⟩ ≤ f ⟨3, 9, 1⟩ → IsArgsortBy f exCtxSwapped.qctx [0, 1, 2] := by
    intro f h1 h2
    rw [h]
    refine ⟨by decide, ?_⟩
    have h3 := h1.trans h2
    simp [h1, h2, h3]
  refine ⟨exCtx_ok.query, exCtx_ok.series, by decide, by decide, key _ (by decide) (by decide), key _ (by decide) (by decide), le_refl (1 : ℚ), show (1 : ℚ) ≤ 2 by norm_num, ?_, ?_, ?_⟩ <;> decide +kernel

example : ∃ o o', exCtx.new = .ok o ∧ exCtxSwapped.new = .ok o' ∧ ∃ os os', exJoin.result (CMP.ops StaticMgr.ops) [(o, [2]), (o, [0])] = .ok os ∧
    exJoin'.result (CMP.ops StaticMgr.ops) [(o', [2]), (o', [0])] = .ok os' ∧ os.length = 2 ∧ os'.length = 2 := by
  obtain ⟨o, ho⟩ : ∃ o, exCtx.new = .ok o := ⟨_, rfl⟩
  obtain ⟨o', ho'⟩ : ∃ o, exCtxSwapped.new = .ok o := ⟨_, rfl⟩
  obtain ⟨os, os', h1, h2, h3, h4, -⟩ := C104_contextual_partial exJoin exJoin' [(exCtx, o, 2), (exCtx, o, 0)] [(exCtxSwapped, o', 2), (exCtxSwapped, o', 0)]
    (by simpa using ⟨exCtx_ok, ho⟩) (by simpa using ⟨exCtxSwapped_ok, ho'⟩) (.cons ⟨rfl, rfl, rfl⟩ (.cons ⟨rfl, rfl, rfl⟩ .nil)) (exJoin_ok (by simp) (by simp) (by simp))
    (exJoin'_ok (by simp) (by simp) (by simp)) exJoin_swapped rfl rfl
  exact ⟨o, o', ho, ho', os, os', h1, h2, h3, h4⟩

end Verif
