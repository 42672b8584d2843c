import Verif.Props.Consensus
import Verif.Props.EndToEnd

/-!
# C121: consensus motifs and matrix profiles
-/

namespace Verif
open Spec

/-- `P i j` is the matrix profile that a calculator makes, by columns or by diagonals, of series `i` with series `j` as query. -/
def PairProfiles (mem : ZN.Mem) (shuffle : List Int → List Int) (byColumns : Bool) (m : Nat) (series : List (List ℝ)) (P : Nat → Nat → MP ℝ) : Prop :=
  ∀ i j s q, series[i]? = some s → series[j]? = some q → matrixProfile (ZN.genOps mem) (ZN.prepare mem 0) shuffle byColumns m (s.map .fin) (some (q.map .fin)) none = .ok (P i j)

namespace ConsensusProfiles

/-- The profiles exist, and their entries are the distances of the best matches. -/
theorem exist (mem : ZN.Mem) (hmem : mem.Ok) (shuffle : List Int → List Int) (hsh : ∀ l, (shuffle l).Perm l) (byColumns : Bool) (m : Nat) (hm : 0 < m) (series : List (List ℝ))
    (hs : ∀ s ∈ series, m ≤ s.length) :
    ∃ P, PairProfiles mem shuffle byColumns m series P ∧ ∀ i a j, IsSub m series i a → j < series.length → ∃ x, IsMatch m series i a j x ∧ (MP.merged (P i j).left (P i j).right)[a]? = some (.fin x) := by
  have h : ∀ i j, ∃ p : MP ℝ, ∀ s q, series[i]? = some s → series[j]? = some q →
      matrixProfile (ZN.genOps mem) (ZN.prepare mem 0) shuffle byColumns m (s.map .fin) (some (q.map .fin)) none = .ok p ∧
      ∀ a, a + m ≤ s.length → ∃ x, IsMatch m series i a j x ∧ (MP.merged p.left p.right)[a]? = some (.fin x) := by
    intro i j
    by_cases hij : ∃ s q, series[i]? = some s ∧ series[j]? = some q
    · obtain ⟨s, q, h1, h2⟩ := hij
      have hls := hs s (List.mem_of_getElem? h1)
      have hlq := hs q (List.mem_of_getElem? h2)
      obtain ⟨p, p1, p2⟩ := C60_znorm mem hmem 0 shuffle hsh byColumns m hm s (some q) hls (by rintro q' ⟨⟩; exact hlq) none (by simp)
      refine ⟨p, fun s' q' e1 e2 => ?_⟩
      obtain rfl : s = s' := Option.some.inj (h1.symm.trans e1)
      obtain rfl : q = q' := Option.some.inj (h2.symm.trans e2)
      refine ⟨p1, fun a ha => ?_⟩
      obtain ⟨_, _, v, _, _, _, -, -, h3, -, -, -, -, -, h9⟩ := p2.entries a (by omega)
      simp only [Option.getD_some, reduceCtorEq, false_imp_iff] at h9
      rcases h9 with ⟨-, h⟩ | ⟨r, r1, -, rfl, -, r5⟩
      · exact absurd trivial (h 0 (by omega))
      · exact ⟨_, ⟨s, q, h1, h2, ⟨r, by omega, rfl⟩, by rintro d ⟨b, hb, rfl⟩; exact r5 b (by omega) trivial⟩, h3⟩
    · exact ⟨MP.new, fun s q e1 e2 => absurd ⟨s, q, e1, e2⟩ hij⟩
  choose P hP using h
  refine ⟨P, fun i j s q h1 h2 => (hP i j s q h1 h2).1, ?_⟩
  rintro i a j ⟨s, h1, h2⟩ hj
  exact (hP i j s _ h1 (List.getElem?_eq_getElem hj)).2 a h2

/-- What a radius is in terms of the profiles. -/
theorem radius {m : Nat} {series : List (List ℝ)} {P : Nat → Nat → MP ℝ} {i a : Nat} {r : ℝ} (ha : IsSub m series i a)
    (hP : ∀ i a j, IsSub m series i a → j < series.length → ∃ x, IsMatch m series i a j x ∧ (MP.merged (P i j).left (P i j).right)[a]? = some (.fin x)) (h : IsRadius m series i a r) :
    (∀ j, j < series.length → j ≠ i → ∃ x ≤ r, (MP.merged (P i j).left (P i j).right)[a]? = some (.fin x)) ∧
      ∃ j, j < series.length ∧ j ≠ i ∧ (MP.merged (P i j).left (P i j).right)[a]? = some (.fin r) := by
  refine ⟨fun j h1 h2 => ?_, ?_⟩
  · obtain ⟨x, x1, x2⟩ := hP i a j ha h1
    exact ⟨x, h.2 ⟨j, h1, h2, x1⟩, x2⟩
  · obtain ⟨j, h1, h2, h3⟩ := h.1
    obtain ⟨x, x1, x2⟩ := hP i a j ha h1
    exact ⟨j, h1, h2, by rw [x2, IsMatch.unique x1 h3]⟩

/-- The largest entry is a radius. -/
theorem of_largest {m : Nat} {series : List (List ℝ)} (hn : 2 ≤ series.length) {P : Nat → Nat → MP ℝ} {i a : Nat} (ha : IsSub m series i a)
    (hP : ∀ i a j, IsSub m series i a → j < series.length → ∃ x, IsMatch m series i a j x ∧ (MP.merged (P i j).left (P i j).right)[a]? = some (.fin x)) :
    ∃ r, IsRadius m series i a r := by
  classical
  have h : ∀ j, ∃ x : ℝ, j < series.length → IsMatch m series i a j x := by
    intro j
    by_cases hj : j < series.length
    · obtain ⟨x, x1, -⟩ := hP i a j ha hj
      exact ⟨x, fun _ => x1⟩
    · exact ⟨0, fun h => absurd h hj⟩
  choose x hx using h
  obtain ⟨j0, hj0, hj0'⟩ : ∃ j, j < series.length ∧ j ≠ i := by
    by_cases h : i = 0
    · exact ⟨1, by omega, by omega⟩
    · exact ⟨0, by omega, by omega⟩
  obtain ⟨j, hj, hmax⟩ := ((Finset.range series.length).filter (· ≠ i)).exists_max_image x ⟨j0, by simp [hj0, hj0']⟩
  rw [Finset.mem_filter, Finset.mem_range] at hj
  refine ⟨x j, ⟨j, hj.1, hj.2, hx j hj.1⟩, ?_⟩
  rintro y ⟨k, h1, h2, h3⟩
  rw [IsMatch.unique h3 (hx k h1)]
  exact hmax k (by simp [h1, h2])

end ConsensusProfiles

open Ostinato ConsensusProfiles

/-- **C121, consensus motif.** Beside `find_consensus_motif`, a calculator makes the matrix profiles of all pairs of the series. The radius reported is the largest of the entries for the
reported subsequence in the profiles of its series, and for every other subsequence of every series one of its entries is at least as large. -/
theorem C121_consensus (mem mem' : ZN.Mem) (hmem : mem.Ok) (hmem' : mem'.Ok) (argsort : List (Fl ℝ) → List Nat) (hsort : ∀ l, IsArgsort l (argsort l)) (shuffle : List Int → List Int)
    (hsh : ∀ l, (shuffle l).Perm l) (byColumns : Bool) (m : Nat) (hm : 3 ≤ m) (series : List (List ℝ)) (hn : 2 ≤ series.length) (hs : ∀ s ∈ series, m ≤ s.length) :
    ∃ P, PairProfiles mem' shuffle byColumns m series P ∧ ∃ (r : ℝ) (i a : Nat), findConsensusMotif mem argsort (series.map (·.map .fin)) m = .ok ⟨.fin r, i, a⟩ ∧
      (∀ j, j < series.length → j ≠ i → ∃ x ≤ r, (MP.merged (P i j).left (P i j).right)[a]? = some (.fin x)) ∧
      (∃ j, j < series.length ∧ j ≠ i ∧ (MP.merged (P i j).left (P i j).right)[a]? = some (.fin r)) ∧
      ∀ i' s' a', series[i']? = some s' → a' + m ≤ s'.length → ∃ j, j < series.length ∧ j ≠ i' ∧ ∃ x, r ≤ x ∧ (MP.merged (P i' j).left (P i' j).right)[a']? = some (.fin x) := by
  obtain ⟨P, p1, p2⟩ := ConsensusProfiles.exist mem' hmem' shuffle hsh byColumns m (by omega) series hs
  obtain ⟨r, i, a, h1, h2, h3, h4⟩ := C55_optimum mem hmem argsort hsort m hm series hn hs
  refine ⟨P, p1, r, i, a, h1, (ConsensusProfiles.radius h2 p2 h3).1, (ConsensusProfiles.radius h2 p2 h3).2, fun i' s' a' g1 g2 => ?_⟩
  have hsub : IsSub m series i' a' := ⟨s', g1, g2⟩
  obtain ⟨r', hr'⟩ := of_largest hn hsub p2
  obtain ⟨j, j1, j2, j3⟩ := (ConsensusProfiles.radius hsub p2 hr').2
  exact ⟨j, j1, j2, r', h4 i' a' r' hsub hr', j3⟩

/-- **C121, anytime.** The `get_radii` of a completed `OstinatoAnytime` are the pointwise largest entries of the matrix profiles of each series with the others. -/
theorem C121_anytime (mem mem' : ZN.Mem) (hmem : mem.Ok) (hmem' : mem'.Ok) (shuffle : Nat → List Int → List Int) (hsh : ∀ t l, (shuffle t l).Perm l) (shuffle' : List Int → List Int)
    (hsh' : ∀ l, (shuffle' l).Perm l) (byColumns : Bool) (m : Nat) (hm : 0 < m) (series : List (List ℝ)) (hs : ∀ s ∈ series, m ≤ s.length) (hn : 2 ≤ series.length)
    (calls : List (PyNum × (Nat → Nat → Bool))) (hc : ∀ c ∈ calls, Fraction c.1) (o o1 o2 : Any ZN ℝ)
    (ho : Any.init mem shuffle (series.map (·.map .fin)) m = .ok o) (ho1 : o.run (ZN.genOps mem) calls = .ok o1)
    (ho2 : o1.calculate (ZN.genOps mem) (fun _ _ => false) (.float (.fin 1)) = .ok o2) :
    ∃ P, PairProfiles mem' shuffle' byColumns m series P ∧ ∃ RR, o2.getRadii none = .ok RR ∧ RR.length = series.length ∧ ∀ i s, series[i]? = some s →
      ∃ R, RR[i]? = some R ∧ R.length = s.length + 1 - m ∧ ∀ a, a + m ≤ s.length → ∃ r : ℝ, R[a]? = some (.fin r) ∧
        (∀ j, j < series.length → j ≠ i → ∃ x ≤ r, (MP.merged (P i j).left (P i j).right)[a]? = some (.fin x)) ∧
        ∃ j, j < series.length ∧ j ≠ i ∧ (MP.merged (P i j).left (P i j).right)[a]? = some (.fin r) := by
  obtain ⟨P, p1, p2⟩ := ConsensusProfiles.exist mem' hmem' shuffle' hsh' byColumns m hm series hs
  obtain ⟨RR, h1, h2, h3⟩ := C57_exact mem hmem shuffle hsh m hm series hs hn none (by simp) calls hc o o1 o2 ho ho1 ho2
  refine ⟨P, p1, RR, h1, h2, fun i s hi => ?_⟩
  obtain ⟨R, r1, r2, r3⟩ := h3 i s hi
  refine ⟨R, r1, r2, fun a ha => ?_⟩
  obtain ⟨v, v1, r, v2, rfl⟩ := r3 a ha
  exact ⟨r, v1, ConsensusProfiles.radius ⟨s, hi, ha⟩ p2 v2⟩

/-- **C121, pairs.** The radius that `find_consensus_motif_subset` reports for `k = 2` is the smallest of all entries of the matrix profiles of two series, and it is an entry for the
reported subsequence. -/
theorem C121_pair (mem mem' : ZN.Mem) (hmem : mem.Ok) (hmem' : mem'.Ok) (shuffle : Nat → Nat → List Int → List Int) (hsh : ∀ i t l, (shuffle i t l).Perm l)
    (argsort : List (Fl ℝ) → List Nat) (hsort : ∀ l, IsArgsort l (argsort l)) (shuffle' : List Int → List Int) (hsh' : ∀ l, (shuffle' l).Perm l) (byColumns : Bool) (m : Nat) (hm : 3 ≤ m)
    (series : List (List ℝ)) (hn : 2 ≤ series.length) (hs : ∀ s ∈ series, m ≤ s.length) :
    ∃ P, PairProfiles mem' shuffle' byColumns m series P ∧ ∃ (r : ℝ) (i a : Nat),
      findConsensusMotifSubset mem shuffle argsort (series.map (·.map .fin)) m (2 : Nat) = .ok ⟨.fin r, i, a⟩ ∧
      (∃ j, j < series.length ∧ j ≠ i ∧ (MP.merged (P i j).left (P i j).right)[a]? = some (.fin r)) ∧
      ∀ i' s' a', series[i']? = some s' → a' + m ≤ s'.length → ∀ j, j < series.length → j ≠ i' → ∃ x, r ≤ x ∧ (MP.merged (P i' j).left (P i' j).right)[a']? = some (.fin x) := by
  obtain ⟨P, p1, p2⟩ := ConsensusProfiles.exist mem' hmem' shuffle' hsh' byColumns m (by omega) series hs
  obtain ⟨r, i, a, h1, h2, h3, h4⟩ := C56_partial mem hmem shuffle hsh argsort hsort m 2 hm series le_rfl (by norm_num) hn hs
  -- the least entry for a subsequence is its radius
  have least : ∀ i' a', IsSub m series i' a' → ∃ j, j < series.length ∧ j ≠ i' ∧ ∃ x, IsMatch m series i' a' j x ∧ (MP.merged (P i' j).left (P i' j).right)[a']? = some (.fin x) ∧
      IsSubsetRadius m series 2 i' a' x ∧ ∀ k y, k < series.length → k ≠ i' → IsMatch m series i' a' k y → x ≤ y := by
    classical
    intro i' a' hsub
    have h : ∀ j, ∃ x : ℝ, j < series.length → IsMatch m series i' a' j x ∧ (MP.merged (P i' j).left (P i' j).right)[a']? = some (.fin x) := by
      intro j
      by_cases hj : j < series.length
      · obtain ⟨x, x1, x2⟩ := p2 i' a' j hsub hj
        exact ⟨x, fun _ => ⟨x1, x2⟩⟩
      · exact ⟨0, fun h => absurd h hj⟩
    choose x hx using h
    obtain ⟨j0, hj0, hj0'⟩ : ∃ j, j < series.length ∧ j ≠ i' := by
      by_cases h : i' = 0
      · exact ⟨1, by omega, by omega⟩
      · exact ⟨0, by omega, by omega⟩
    obtain ⟨j, hj, hmin⟩ := ((Finset.range series.length).filter (· ≠ i')).exists_min_image x ⟨j0, by simp [hj0, hj0']⟩
    rw [Finset.mem_filter, Finset.mem_range] at hj
    have low : ∀ k y, k < series.length → k ≠ i' → IsMatch m series i' a' k y → x j ≤ y := by
      intro k y g1 g2 g3
      rw [IsMatch.unique g3 (hx k g1).1]
      exact hmin k (by simp [g1, g2])
    refine ⟨j, hj.1, hj.2, x j, (hx j hj.1).1, (hx j hj.1).2, ⟨⟨{j}, rfl, ?_⟩, ?_⟩, low⟩
    · intro k hk
      obtain rfl := Finset.mem_singleton.mp hk
      exact ⟨hj.1, hj.2, x k, le_rfl, (hx k hj.1).1⟩
    · rintro y ⟨J, hJ, hall⟩
      obtain ⟨k, hk⟩ := Finset.card_pos.mp (show 0 < J.card by rw [hJ]; norm_num)
      obtain ⟨g1, g2, z, g3, g4⟩ := hall k hk
      exact (low k z g1 g2 g4).trans g3
  refine ⟨P, p1, r, i, a, h1, ?_, ?_⟩
  · obtain ⟨j, j1, j2, x, -, j4, j5, -⟩ := least i a h2
    exact ⟨j, j1, j2, by rw [j4, IsLeast.unique j5 h3]⟩
  · intro i' s' a' g1 g2 j g3 g4
    have hsub : IsSub m series i' a' := ⟨s', g1, g2⟩
    obtain ⟨j', -, -, x, -, -, j5, j6⟩ := least i' a' hsub
    obtain ⟨y, y1, y2⟩ := p2 i' a' j hsub g3
    exact ⟨y, (h4 i' a' x hsub j5).trans (j6 j y g3 g4 y1), y2⟩

/-! ### Concrete cases -/

example := C121_consensus ZN.zeroMem ZN.zeroMem ZN.zeroMem_ok ZN.zeroMem_ok Ostinato.sortIdx Ostinato.sortIdx_ok List.reverse List.reverse_perm true 3 le_rfl consensusA (by simp [consensusA])
  consensusA_long

example : ∃ (o2 : Any ZN ℝ) (RR : List (List (Fl ℝ))), o2.getRadii none = .ok RR ∧ RR.length = consensusA.length := by
  obtain ⟨o, o1, o2, h1, h2, h3⟩ := consensus_finished (fun _ l => l.reverse) (fun _ l => List.reverse_perm l) consensusA consensusA_long
  obtain ⟨P, -, RR, g1, g2, -⟩ := C121_anytime ZN.zeroMem ZN.zeroMem ZN.zeroMem_ok ZN.zeroMem_ok (fun _ l => l.reverse) (fun _ l => List.reverse_perm l) id (fun l => List.Perm.refl l) false 3
    (by norm_num) consensusA consensusA_long (by simp [consensusA]) _ consensus_half o o1 o2 h1 h2 h3
  exact ⟨o2, RR, g1, g2⟩

example := C121_pair ZN.zeroMem ZN.zeroMem ZN.zeroMem_ok ZN.zeroMem_ok (fun _ _ l => l.reverse) (fun _ _ l => List.reverse_perm l) Ostinato.sortIdx Ostinato.sortIdx_ok List.reverse
  List.reverse_perm true 3 le_rfl consensusA (by simp [consensusA]) consensusA_long

end Verif
