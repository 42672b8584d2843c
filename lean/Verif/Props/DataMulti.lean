import Verif.Props.DataCounts
import Verif.Props.MultiProfile

/-!
# C110 and C111 for `MultidimensionalMatrixProfileLR`

The profiles over several dimensions of a calculation next to those of one on the same data read backwards and of one on longer data.
-/

namespace Verif
open Spec
variable {α : Type}

/-- Every row of one minimum stands, moved by `φ`, with the same distances among the rows of another: the other minimum is no larger. -/
theorem multiMin_le {n k : Nat} {P P' : Nat → Prop} {f f' : Nat → Nat → ℝ} {e e' : Fl ℝ × Int × List Int} (φ : Nat → Nat) (hP : ∀ r, P r → P' (φ r))
    (hf : ∀ r, P r → ∀ i, f' i (φ r) = f i r) (he : IsMultiMin n k P f e) (he' : IsMultiMin n k P' f' e') : Fl.leF e'.1 e.1 = true := by
  rw [Fl.leF_iff]
  rcases he.attained with ⟨rfl, -⟩ | ⟨r, T, hr, hT, rfl⟩
  · refine ⟨?_, by simp⟩
    rcases he'.attained with ⟨rfl, -⟩ | ⟨r, T, -, -, rfl⟩
    · exact le_refl _
    · exact le_of_lt (Fl.fin_lt_pinf _)
  · refine ⟨?_, by simp⟩
    have := he'.lower (φ r) (hP r hr) T hT
    rwa [show (T.map fun i => f' i (φ r)) = T.map fun i => f i r from List.map_congr_left fun i _ => hf r hr i] at this

theorem multiMin_eq {n k : Nat} {P P' : Nat → Prop} {f f' : Nat → Nat → ℝ} {e e' : Fl ℝ × Int × List Int} (φ ψ : Nat → Nat) (hP : ∀ r, P r → P' (φ r))
    (hf : ∀ r, P r → ∀ i, f' i (φ r) = f i r) (hP' : ∀ r, P' r → P (ψ r)) (hf' : ∀ r, P' r → ∀ i, f i (ψ r) = f' i r) (he : IsMultiMin n k P f e)
    (he' : IsMultiMin n k P' f' e') : e'.1 = e.1 :=
  le_antisymm ((Fl.leF_iff _ _).mp (multiMin_le φ hP hf he he')).1 ((Fl.leF_iff _ _).mp (multiMin_le ψ hP' hf' he' he)).1

/-- **C111** for `MultidimensionalMatrixProfileLR`: no entry of the left, right and merged profile of any number of dimensions grows if points are added at the end, and in a join to
whose query nothing is added all values stay the same. Partial: both calculations only if diagonals are not calculated with a query longer than the series (`C71_long_query_raises`). -/
theorem C111_multidimensional_partial (B B' : BatchCase α) (t u : List α) (argsort : List (Fl ℝ) → List Nat) (has : ∀ l, IsArgsort l (argsort l))
    (cs : List (MDObj ℝ × List Nat)) (hcs : ∀ c ∈ cs, c.1.New ∧ c.2 ≠ []) (hB : B.Ok (cs.map (·.2))) (hB' : B'.Ok (cs.map (·.2))) (hex : B.Extended B' t u)
    (hc : B.Complete) (hc' : B'.Complete) (hlong : ∀ n, .diagonals n ∈ B.us → B.h ≤ B.w) (hlong' : ∀ n, .diagonals n ∈ B'.us → B'.h ≤ B'.w) :
    ∃ cons cons', B.result (MDMP.ops argsort) cs = .ok cons ∧ B'.result (MDMP.ops argsort) cs = .ok cons' ∧ cons.length = cs.length ∧ cons'.length = cs.length ∧
      ∀ (n : Nat) (x : MDObj ℝ × List Nat) (o o' : MDObj ℝ × List Nat), cs[n]? = some x → cons[n]? = some o → cons'[n]? = some o' →
        ∃ p p', o.1.st = some p ∧ o'.1.st = some p' ∧ ∀ k < x.2.length, ∀ c < B.w, ∃ l l' r r' v v',
          p.left.read k c = some l ∧ p'.left.read k c = some l' ∧ p.right.read k c = some r ∧ p'.right.read k c = some r' ∧
          p.readMerged k c = some v ∧ p'.readMerged k c = some v' ∧
          Fl.leF l'.1 l.1 = true ∧ Fl.leF r'.1 r.1 = true ∧ Fl.leF v'.1 v.1 = true ∧
          (B.query ≠ none → u = [] → l'.1 = l.1 ∧ r'.1 = r.1 ∧ v'.1 = v.1) := by
  obtain ⟨cons, h1, h2⟩ := C71_batch_partial B argsort has cs hcs hB hlong
  obtain ⟨cons', h3, h4⟩ := C71_batch_partial B' argsort has cs hcs hB' hlong'
  rw [forall₂_iff_getElem?] at h2 h4
  refine ⟨cons, cons', h1, h3, h2.1, h4.1, fun n x o o' hx ho ho' => ?_⟩
  obtain ⟨-, p, e1, e2⟩ := h2.2 n _ _ hx ho
  obtain ⟨-, p', f1, f2⟩ := h4.2 n _ _ hx ho'
  refine ⟨p, p', e1, f1, fun k hk c hcw => ?_⟩
  have hw := hex.width
  have hh := hex.height
  have hpos : 0 < B.m := hB.args.pos
  obtain ⟨l, l1, l2⟩ := e2.left k hk c hcw
  obtain ⟨r, r1, r2⟩ := e2.right k hk c hcw
  obtain ⟨v, v1, v2⟩ := e2.merged k hk c hcw
  obtain ⟨l', l1', l2'⟩ := f2.left k hk c (by omega)
  obtain ⟨r', r1', r2'⟩ := f2.right k hk c (by omega)
  obtain ⟨v', v1', v2'⟩ := f2.merged k hk c (by omega)
  simp only [Nat.add_zero] at l2 r2 v2 l2' r2' v2'
  have key : ∀ i, i < B.h → (B'.done i c ↔ B.done i c) := fun i hi => by
    rw [hB'.complete hc' i c (by omega) (by omega), hB.complete hc i c hi hcw, hex.none, hex.band]
  have up : ∀ i, i < B.h ∧ B.done i c → i < B'.h ∧ B'.done i c := fun i h => ⟨by omega, (key i h.1).mpr h.2⟩
  have val : ∀ id i, i < B.h → B'.value id i c = B.value id i c := fun id i hi => hex.value hpos id hi hcw
  refine ⟨l, l', r, r', v, v', l1, l1', r1, r1', v1, v1', multiMin_le id (fun i h => ⟨up i h.1, h.2⟩) (fun i h j => val _ i h.1.1) l2 l2',
    multiMin_le id (fun i h => ⟨up i h.1, h.2⟩) (fun i h j => val _ i h.1.1) r2 r2', multiMin_le id (fun i h => up i h) (fun i h j => val _ i h.1) v2 v2', fun hq hu => ?_⟩
  subst hu
  have eh := hex.same_height hq
  have down : ∀ i, i < B'.h ∧ B'.done i c → i < B.h ∧ B.done i c := fun i h => ⟨by omega, (key i (by omega)).mp h.2⟩
  exact ⟨multiMin_eq id id (fun i h => ⟨up i h.1, h.2⟩) (fun i h j => val _ i h.1.1) (fun i h => ⟨down i h.1, h.2⟩) (fun i h j => (val _ i (down i h.1).1).symm) l2 l2',
    multiMin_eq id id (fun i h => ⟨up i h.1, h.2⟩) (fun i h j => val _ i h.1.1) (fun i h => ⟨down i h.1, h.2⟩) (fun i h j => (val _ i (down i h.1).1).symm) r2 r2',
    multiMin_eq id id (fun i h => up i h) (fun i h j => val _ i h.1) (fun i h => down i h) (fun i h j => (val _ i (down i h).1).symm) v2 v2'⟩

/-- **C110** for `MultidimensionalMatrixProfileLR`: the values of the merged profile of every number of dimensions are those of the data read backwards, read backwards. Partial as
`C111_multidimensional_partial`. -/
theorem C110_multidimensional_partial (B B' : BatchCase α) (argsort : List (Fl ℝ) → List Nat) (has : ∀ l, IsArgsort l (argsort l))
    (cs : List (MDObj ℝ × List Nat)) (hcs : ∀ c ∈ cs, c.1.New ∧ c.2 ≠ []) (hB : B.Ok (cs.map (·.2))) (hB' : B'.Ok (cs.map (·.2))) (hrev : B.Reversed B')
    (hc : B.Complete) (hc' : B'.Complete) (hlong : ∀ n, .diagonals n ∈ B.us → B.h ≤ B.w) (hlong' : ∀ n, .diagonals n ∈ B'.us → B'.h ≤ B'.w) :
    ∃ cons cons', B.result (MDMP.ops argsort) cs = .ok cons ∧ B'.result (MDMP.ops argsort) cs = .ok cons' ∧ cons.length = cs.length ∧ cons'.length = cs.length ∧
      ∀ (n : Nat) (x : MDObj ℝ × List Nat) (o o' : MDObj ℝ × List Nat), cs[n]? = some x → cons[n]? = some o → cons'[n]? = some o' →
        ∃ p p', o.1.st = some p ∧ o'.1.st = some p' ∧ ∀ k < x.2.length, ∀ c < B.w, ∃ v v',
          p.readMerged k c = some v ∧ p'.readMerged k (B.w - 1 - c) = some v' ∧ v'.1 = v.1 := by
  obtain ⟨cons, h1, h2⟩ := C71_batch_partial B argsort has cs hcs hB hlong
  obtain ⟨cons', h3, h4⟩ := C71_batch_partial B' argsort has cs hcs hB' hlong'
  rw [forall₂_iff_getElem?] at h2 h4
  refine ⟨cons, cons', h1, h3, h2.1, h4.1, fun n x o o' hx ho ho' => ?_⟩
  obtain ⟨-, p, e1, e2⟩ := h2.2 n _ _ hx ho
  obtain ⟨-, p', f1, f2⟩ := h4.2 n _ _ hx ho'
  refine ⟨p, p', e1, f1, fun k hk c hcw => ?_⟩
  have hw := hrev.width
  have hh := hrev.height
  obtain ⟨v, v1, v2⟩ := e2.merged k hk c hcw
  obtain ⟨v', v1', v2'⟩ := f2.merged k hk (B.w - 1 - c) (by omega)
  simp only [Nat.add_zero] at v2 v2'
  have key : ∀ i, i < B.h → (B'.done (B.h - 1 - i) (B.w - 1 - c) ↔ B.done i c) := fun i hi => by
    rw [hB'.complete hc' _ _ (by omega) (by omega), hB.complete hc i c hi hcw]
    exact hrev.apart hi hcw
  have back : ∀ i, i < B.h → B.h - 1 - (B.h - 1 - i) = i := fun i hi => by omega
  refine ⟨v, v', v1, v1', multiMin_eq (fun i => B.h - 1 - i) (fun i => B.h - 1 - i) (fun i h => ⟨by omega, (key i h.1).mpr h.2⟩)
    (fun i h j => hrev.value _ h.1 hcw) (fun i h => ?_) (fun i h j => ?_) v2 v2'⟩
  · have h5 : i < B.h := hh ▸ h.1
    exact ⟨by omega, (key _ (by omega)).mp ((back i h5).symm ▸ h.2)⟩
  · have h5 : i < B.h := hh ▸ h.1
    rw [← hrev.value _ (show B.h - 1 - i < B.h by omega) hcw, back i h5]

/-! ### Examples -/

example := C111_multidimensional_partial exBatchAll exBatchLong [(2, 2)] [] exArgsort exArgsort_ok [(exMDObj ℝ, [2, 0]), (exMDObj ℝ, [0])] (by simp [exMDObj_new])
  (exBatchAll_ok (by simp) (by simp) (by simp)) (exBatchLong_ok (by simp) (by simp) (by simp)) ⟨rfl, rfl, rfl, rfl, rfl, rfl⟩ rfl rfl (fun _ _ => le_refl _) (fun _ _ => le_refl _)

example := C110_multidimensional_partial exBatchAll exBatchBack exArgsort exArgsort_ok [(exMDObj ℝ, [2, 0]), (exMDObj ℝ, [0])] (by simp [exMDObj_new])
  (exBatchAll_ok (by simp) (by simp) (by simp)) (exBatchBack_ok (by simp) (by simp) (by simp)) ⟨rfl, rfl, rfl, rfl, rfl, rfl⟩ rfl rfl (fun _ _ => le_refl _) (fun _ _ => le_refl _)

/-- A join; only the series gets longer. -/
example := C111_multidimensional_partial exJoin exJoinWide _ _ exArgsort exArgsort_ok [(exMDObj ℝ, [2, 0]), (exMDObj ℝ, [0])] (by simp [exMDObj_new])
  (exJoin_ok (by simp) (by simp) (by simp)) (exJoinWide_ok (by simp) (by simp) (by simp)) exJoinWide_extended rfl rfl
  (fun _ _ => show exJoin.h ≤ exJoin.w by decide) (fun _ _ => show exJoinWide.h ≤ exJoinWide.w by decide)

end Verif
