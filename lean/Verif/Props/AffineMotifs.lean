import Verif.Props.Consensus
import Verif.Props.MotifLengths

/-!
# C120: motifs of series in other units
-/

namespace Verif
open Spec

/-- The values of a series in another unit. -/
def rescaled (a b : ℝ) (s : List ℝ) : List ℝ := s.map fun x => a * x + b

/-- The change of the unit by a factor `a` neither makes subsequences of length `m` count as flat that did not, nor the other way round. -/
def KeepsFlat (m : Nat) (a : ℝ) (s : List ℝ) : Prop := ∀ i, i + m ≤ s.length → (|a| * std m (seqOf s) i ≤ 1 / 10 ^ 6 ↔ std m (seqOf s) i ≤ 1 / 10 ^ 6)

/-- Each series in its own unit. -/
def rescaledAll (a b : Nat → ℝ) (series : List (List ℝ)) : List (List ℝ) := series.mapIdx fun i s => rescaled (a i) (b i) s

namespace AffineMotifs

theorem length_rescaled (a b : ℝ) (s : List ℝ) : (rescaled a b s).length = s.length := List.length_map _

theorem flat_rescaled {m : Nat} (hm : 0 < m) {a b : ℝ} {s : List ℝ} (hk : KeepsFlat m a s) {i : Nat} (hi : i + m ≤ s.length) :
    Flat m (seqOf (rescaled a b s)) i ↔ Flat m (seqOf s) i := by
  unfold Flat
  rw [std_affine m hm (seqOf s) (seqOf (rescaled a b s)) i a b (seqOf_map_affine m s a b i hi)]
  exact hk i hi

theorem zflat_rescaled {m : Nat} (hm : 0 < m) {a b c d : ℝ} (hac : 0 < a * c) {s q : List ℝ} (hs : KeepsFlat m a s) (hq : KeepsFlat m c q) {i j : Nat} (hi : i + m ≤ q.length)
    (hj : j + m ≤ s.length) : zflat m (seqOf (rescaled a b s)) (seqOf (rescaled c d q)) i j = zflat m (seqOf s) (seqOf q) i j := by
  unfold zflat
  rw [propext (flat_rescaled (b := b) hm hs hj), propext (flat_rescaled (b := d) hm hq hi),
    zsq_affine m hm (seqOf s) (seqOf q) (seqOf (rescaled a b s)) (seqOf (rescaled c d q)) i j a b c d hac (seqOf_map_affine m s a b j hj) (seqOf_map_affine m q c d i hi)]

theorem zdist_rescaled {m : Nat} (hm : 0 < m) {a b c d : ℝ} (hac : 0 < a * c) {s q : List ℝ} (hs : KeepsFlat m a s) (hq : KeepsFlat m c q) {i j : Nat} (hi : i + m ≤ q.length)
    (hj : j + m ≤ s.length) : zdist m 0 (seqOf (rescaled a b s)) (seqOf (rescaled c d q)) i j = zdist m 0 (seqOf s) (seqOf q) i j := by
  unfold zdist znoise
  rw [zflat_rescaled hm hac hs hq hi hj]
  simp

/-- With noise elimination: both in the same unit, and the noise too. -/
theorem zdist_rescaled_noise {m : Nat} (hm : 0 < m) {a b : ℝ} (ha : a ≠ 0) (noise : ℝ) {s : List ℝ} (hs : KeepsFlat m a s) {i j : Nat} (hi : i + m ≤ s.length)
    (hj : j + m ≤ s.length) : zdist m (|a| * noise) (seqOf (rescaled a b s)) (seqOf (rescaled a b s)) i j = zdist m noise (seqOf s) (seqOf s) i j := by
  have e : 2 * ((m : ℝ) + 1) * (|a| * noise) ^ 2 / max (std m (seqOf (rescaled a b s)) j) (std m (seqOf (rescaled a b s)) i) ^ 2 =
      2 * (m + 1) * noise ^ 2 / max (std m (seqOf s) j) (std m (seqOf s) i) ^ 2 := by
    rw [std_affine m hm (seqOf s) (seqOf (rescaled a b s)) i a b (seqOf_map_affine m s a b i hi), std_affine m hm (seqOf s) (seqOf (rescaled a b s)) j a b (seqOf_map_affine m s a b j hj),
      ← mul_max_of_nonneg _ _ (abs_nonneg a), mul_pow, mul_pow, ← mul_assoc, mul_comm _ (|a| ^ 2), mul_assoc,
      mul_div_mul_left _ _ (pow_ne_zero 2 (abs_ne_zero.mpr ha))]
  unfold zdist znoise
  rw [zflat_rescaled hm (mul_self_pos.mpr ha) hs hs hi hj, e, propext (flat_rescaled (b := b) hm hs hj), propext (flat_rescaled (b := b) hm hs hi)]

section Radii
variable {m : Nat} (hm : 0 < m) {a b : Nat → ℝ} (ha : ∀ i j, 0 < a i * a j) {series : List (List ℝ)} (hk : ∀ i s, series[i]? = some s → KeepsFlat m (a i) s)

theorem get_rescaled (i : Nat) : (rescaledAll a b series)[i]? = series[i]?.map (rescaled (a i) (b i)) := by
  unfold rescaledAll
  rw [List.getElem?_mapIdx]

theorem length_all : (rescaledAll a b series).length = series.length := by unfold rescaledAll; rw [List.length_mapIdx]

theorem long_all (hs : ∀ s ∈ series, m ≤ s.length) : ∀ s ∈ rescaledAll a b series, m ≤ s.length := by
  intro s h
  obtain ⟨i, hi⟩ := List.mem_iff_getElem?.mp h
  rw [get_rescaled, Option.map_eq_some_iff] at hi
  obtain ⟨t, h1, rfl⟩ := hi
  rw [length_rescaled]
  exact hs t (List.mem_iff_getElem?.mpr ⟨i, h1⟩)

theorem sub_rescaled (i p : Nat) : IsSub m (rescaledAll a b series) i p ↔ IsSub m series i p := by
  unfold IsSub
  rw [get_rescaled]
  constructor
  · rintro ⟨s, h1, h2⟩
    obtain ⟨t, h3, rfl⟩ := Option.map_eq_some_iff.mp h1
    exact ⟨t, h3, by rwa [length_rescaled] at h2⟩
  · rintro ⟨s, h1, h2⟩
    exact ⟨_, by rw [h1]; rfl, by rwa [length_rescaled]⟩

include hm ha hk

theorem match_rescaled {i p : Nat} (hp : IsSub m series i p) (j : Nat) (x : ℝ) : IsMatch m (rescaledAll a b series) i p j x ↔ IsMatch m series i p j x := by
  obtain ⟨s, hs, hps⟩ := hp
  have key : ∀ q, series[j]? = some q → {d | ∃ e, e + m ≤ (rescaled (a j) (b j) q).length ∧ d = zdist m 0 (seqOf (rescaled (a i) (b i) s)) (seqOf (rescaled (a j) (b j) q)) e p} =
      {d | ∃ e, e + m ≤ q.length ∧ d = zdist m 0 (seqOf s) (seqOf q) e p} := by
    intro q hq
    ext d
    simp only [Set.mem_ofPred_eq, length_rescaled]
    exact exists_congr fun e => and_congr_right fun he => by rw [zdist_rescaled hm (ha i j) (hk i s hs) (hk j q hq) he hps]
  unfold IsMatch
  rw [get_rescaled, get_rescaled, hs]
  constructor
  · rintro ⟨s', q', h1, h2, h3⟩
    obtain ⟨q, h4, rfl⟩ := Option.map_eq_some_iff.mp h2
    cases h1
    rw [key q h4] at h3
    exact ⟨s, q, rfl, h4, h3⟩
  · rintro ⟨s', q, h1, h2, h3⟩
    cases h1
    exact ⟨_, _, rfl, by rw [h2]; rfl, by rw [key q h2]; exact h3⟩

theorem radius_rescaled {i p : Nat} (hp : IsSub m series i p) (r : ℝ) : IsRadius m (rescaledAll a b series) i p r ↔ IsRadius m series i p r := by
  unfold IsRadius
  simp only [match_rescaled hm ha hk hp, length_all]

theorem subset_rescaled {i p : Nat} (hp : IsSub m series i p) (k : Nat) (r : ℝ) : IsSubsetRadius m (rescaledAll a b series) k i p r ↔ IsSubsetRadius m series k i p r := by
  unfold IsSubsetRadius
  simp only [match_rescaled hm ha hk hp, length_all]

theorem kradius_rescaled {i p : Nat} (hp : IsSub m series i p) (kBest : Option Nat) (r : ℝ) :
    IsKRadius m (rescaledAll a b series) kBest i p r ↔ IsKRadius m series kBest i p r := by
  cases kBest with
  | none => exact radius_rescaled hm ha hk hp r
  | some k => exact subset_rescaled hm ha hk hp (k + 1) r

end Radii

theorem motif_rescaled {m : Nat} (hm : 0 < m) {a b : ℝ} (ha : a ≠ 0) {noise : ℝ} {x : List ℝ} (hk : KeepsFlat m a x) (e : Nat) (r : Option (Nat × Nat)) :
    IsMotif (|a| * noise) (rescaled a b x) m e r ↔ IsMotif noise x m e r := by
  have hz : ∀ q i, FarPair x.length m e q i →
      zdist m (|a| * noise) (seqOf (rescaled a b x)) (seqOf (rescaled a b x)) q i = zdist m noise (seqOf x) (seqOf x) q i :=
    fun q i h => zdist_rescaled_noise hm ha noise hk h.1 h.2.1
  cases r with
  | none =>
    unfold IsMotif
    simp only [length_rescaled]
  | some z =>
    obtain ⟨q, i⟩ := z
    unfold IsMotif
    simp only [length_rescaled]
    refine and_congr_right fun h => ?_
    constructor
    · intro g q' i' h'
      have := g q' i' h'
      rwa [hz q i h, hz q' i' h'] at this
    · intro g q' i' h'
      rw [hz q i h, hz q' i' h']
      exact g q' i' h'

end AffineMotifs

open Ostinato AffineMotifs Valmod

/-- **C120, consensus motif.** Each series is measured in its own unit (factors all positive or all negative, any offsets, no change of which subsequences count as flat):
`find_consensus_motif` reports the same radius, and what it reports for the one collection has that radius in the other. -/
theorem C120_consensus (mem mem' : ZN.Mem) (hmem : mem.Ok) (hmem' : mem'.Ok) (argsort argsort' : List (Fl ℝ) → List Nat) (hsort : ∀ l, IsArgsort l (argsort l))
    (hsort' : ∀ l, IsArgsort l (argsort' l)) (m : Nat) (hm : 3 ≤ m) (series : List (List ℝ)) (hn : 2 ≤ series.length) (hs : ∀ s ∈ series, m ≤ s.length) (a b : Nat → ℝ)
    (ha : ∀ i j, 0 < a i * a j) (hk : ∀ i s, series[i]? = some s → KeepsFlat m (a i) s) :
    ∃ (r : ℝ) (i p i' p' : Nat), findConsensusMotif mem argsort (series.map (·.map .fin)) m = .ok ⟨.fin r, i, p⟩ ∧
      findConsensusMotif mem' argsort' ((rescaledAll a b series).map (·.map .fin)) m = .ok ⟨.fin r, i', p'⟩ ∧ IsRadius m series i' p' r ∧ IsRadius m (rescaledAll a b series) i p r := by
  obtain ⟨r, i, p, h1, h2, h3, h4⟩ := C55_optimum mem hmem argsort hsort m hm series hn hs
  obtain ⟨r', i', p', g1, g2, g3, g4⟩ := C55_optimum mem' hmem' argsort' hsort' m hm (rescaledAll a b series) (by rw [length_all]; exact hn) (long_all hs)
  have g2' := (sub_rescaled i' p').mp g2
  have g3' := (radius_rescaled (by omega) ha hk g2' r').mp g3
  have h3' := (radius_rescaled (b := b) (by omega) ha hk h2 r).mpr h3
  obtain rfl := le_antisymm (h4 i' p' r' g2' g3') (g4 i p r ((sub_rescaled i p).mpr h2) h3')
  exact ⟨r, i, p, i', p', h1, g1, g3', h3'⟩

/-- **C120, subsets.** The same for `find_consensus_motif_subset` with `k` 2 or 3. -/
theorem C120_consensus_subset (mem mem' : ZN.Mem) (hmem : mem.Ok) (hmem' : mem'.Ok) (shuffle shuffle' : Nat → Nat → List Int → List Int) (hsh : ∀ i t l, (shuffle i t l).Perm l)
    (hsh' : ∀ i t l, (shuffle' i t l).Perm l) (argsort argsort' : List (Fl ℝ) → List Nat) (hsort : ∀ l, IsArgsort l (argsort l)) (hsort' : ∀ l, IsArgsort l (argsort' l))
    (m k : Nat) (hm : 3 ≤ m) (series : List (List ℝ)) (hk2 : 2 ≤ k) (hk3 : k ≤ 3) (hkn : k ≤ series.length) (hs : ∀ s ∈ series, m ≤ s.length) (a b : Nat → ℝ)
    (ha : ∀ i j, 0 < a i * a j) (hk : ∀ i s, series[i]? = some s → KeepsFlat m (a i) s) :
    ∃ (r : ℝ) (i p i' p' : Nat), findConsensusMotifSubset mem shuffle argsort (series.map (·.map .fin)) m k = .ok ⟨.fin r, i, p⟩ ∧
      findConsensusMotifSubset mem' shuffle' argsort' ((rescaledAll a b series).map (·.map .fin)) m k = .ok ⟨.fin r, i', p'⟩ ∧
      IsSubsetRadius m series k i' p' r ∧ IsSubsetRadius m (rescaledAll a b series) k i p r := by
  obtain ⟨r, i, p, h1, h2, h3, h4⟩ := C56_partial mem hmem shuffle hsh argsort hsort m k hm series hk2 hk3 hkn hs
  obtain ⟨r', i', p', g1, g2, g3, g4⟩ := C56_partial mem' hmem' shuffle' hsh' argsort' hsort' m k hm (rescaledAll a b series) hk2 hk3 (by rw [length_all]; exact hkn) (long_all hs)
  have g2' := (sub_rescaled i' p').mp g2
  have g3' := (subset_rescaled (by omega) ha hk g2' k r').mp g3
  have h3' := (subset_rescaled (b := b) (by omega) ha hk h2 k r).mpr h3
  obtain rfl := le_antisymm (h4 i' p' r' g2' g3') (g4 i p r ((sub_rescaled i p).mpr h2) h3')
  exact ⟨r, i, p, i', p', h1, g1, g3', h3'⟩

/-- **C120, anytime.** Two `OstinatoAnytime` objects, one of them with the series in other units, each after any calculations, interrupted anywhere, and then `calculate(1.0)`: their
`get_radii` are the same. -/
theorem C120_anytime (mem mem' : ZN.Mem) (hmem : mem.Ok) (hmem' : mem'.Ok) (shuffle shuffle' : Nat → List Int → List Int) (hsh : ∀ t l, (shuffle t l).Perm l)
    (hsh' : ∀ t l, (shuffle' t l).Perm l) (m : Nat) (hm : 0 < m) (series : List (List ℝ)) (hs : ∀ s ∈ series, m ≤ s.length) (hn : 2 ≤ series.length) (a b : Nat → ℝ)
    (ha : ∀ i j, 0 < a i * a j) (hkf : ∀ i s, series[i]? = some s → KeepsFlat m (a i) s) (kBest : Option Nat) (hk : ∀ k, kBest = some k → 1 ≤ k ∧ k < series.length)
    (calls calls' : List (PyNum × (Nat → Nat → Bool))) (hc : ∀ c ∈ calls, Fraction c.1) (hc' : ∀ c ∈ calls', Fraction c.1) (o o1 o2 o' o1' o2' : Any ZN ℝ)
    (ho : Any.init mem shuffle (series.map (·.map .fin)) m = .ok o) (ho1 : o.run (ZN.genOps mem) calls = .ok o1)
    (ho2 : o1.calculate (ZN.genOps mem) (fun _ _ => false) (.float (.fin 1)) = .ok o2)
    (ho' : Any.init mem' shuffle' ((rescaledAll a b series).map (·.map .fin)) m = .ok o') (ho1' : o'.run (ZN.genOps mem') calls' = .ok o1')
    (ho2' : o1'.calculate (ZN.genOps mem') (fun _ _ => false) (.float (.fin 1)) = .ok o2') :
    ∃ RR, o2.getRadii (kBest.map fun k : Nat => (k : Int)) = .ok RR ∧ o2'.getRadii (kBest.map fun k : Nat => (k : Int)) = .ok RR := by
  obtain ⟨RR, h1, h2, h3⟩ := C57_exact mem hmem shuffle hsh m hm series hs hn kBest hk calls hc o o1 o2 ho ho1 ho2
  obtain ⟨RR', g1, g2, g3⟩ := C57_exact mem' hmem' shuffle' hsh' m hm (rescaledAll a b series) (long_all hs) (by rw [length_all]; exact hn) kBest (by rw [length_all]; exact hk) calls' hc' o' o1' o2'
    ho' ho1' ho2'
  refine ⟨RR, h1, ?_⟩
  rw [g1]
  congr 1
  refine List.ext_getElem? fun i => ?_
  by_cases hi : i < series.length
  · obtain ⟨s, hs0⟩ : ∃ s, series[i]? = some s := ⟨_, List.getElem?_eq_getElem hi⟩
    obtain ⟨R, r1, r2, r3⟩ := h3 i s hs0
    obtain ⟨R', r1', r2', r3'⟩ := g3 i (rescaled (a i) (b i) s) (by rw [get_rescaled, hs0]; rfl)
    rw [r1, r1']
    congr 1
    rw [length_rescaled] at r2'
    have hms := hs s (List.mem_iff_getElem?.mpr ⟨i, hs0⟩)
    refine List.ext_getElem? fun p => ?_
    by_cases hp : p + m ≤ s.length
    · obtain ⟨v, v1, r, v2, rfl⟩ := r3 p hp
      obtain ⟨v', v1', r', v2', rfl⟩ := r3' p (by rwa [length_rescaled])
      rw [v1, v1', Consensus.kradius_unique v2 ((kradius_rescaled hm ha hkf ⟨s, hs0, hp⟩ kBest r').mp v2')]
    · rw [List.getElem?_eq_none (by omega), List.getElem?_eq_none (by omega)]
  · have g2' := g2
    rw [length_all] at g2'
    rw [List.getElem?_eq_none (by omega), List.getElem?_eq_none (by omega)]

/-- **C120, variable length.** Two calls of `find_variable_length_motifs` that return, the second with the series in another unit and the noise in the unit too: for each length, what the
second call found is a motif of the series of the first call as well, at the same distance. -/
theorem C120_lengths (mem mem' : ZN.Mem) (hmem : mem.Ok) (hmem' : mem'.Ok) (argsort argsort' : List (Fl ℝ) → List Nat) (hsort : ∀ v, IsArgsort v (argsort v))
    (hsort' : ∀ v, IsArgsort v (argsort' v)) (size size' : Int) (hsize : 1 ≤ size) (hsize' : 1 ≤ size') (noise : ℝ) (x : List ℝ) (lo k : Nat) (hlo : 2 ≤ lo) (hk : lo + k ≤ x.length)
    (a b : ℝ) (ha : a ≠ 0) (hkf : ∀ m, lo ≤ m → m ≤ lo + k → KeepsFlat m a x)
    (hrel : (x.length : Int) + 1 - lo ≤ size ∨ (noise = 0 ∧ ∀ m, lo < m → m ≤ lo + k → NoNearlyFlat x m))
    (hrel' : (x.length : Int) + 1 - lo ≤ size' ∨ (noise = 0 ∧ ∀ m, lo < m → m ≤ lo + k → NoNearlyFlat (rescaled a b x) m)) (found found' : List (Option (Nat × Nat)))
    (hf : findMotifs mem argsort (x.map .fin) lo ((lo : Int) + k) size noise = .ok found)
    (hf' : findMotifs mem' argsort' ((rescaled a b x).map .fin) lo ((lo : Int) + k) size' (|a| * noise) = .ok found') (j : Nat) (hj : j ≤ k) :
    ∃ r r', found[j]? = some r ∧ found'[j]? = some r' ∧ IsMotif noise x (lo + j) ((lo + 1) / 2) r' ∧ (r = none ↔ r' = none) ∧
      ∀ q i q' i', r = some (q, i) → r' = some (q', i') →
        zdist (lo + j) noise (seqOf x) (seqOf x) q i = zdist (lo + j) (|a| * noise) (seqOf (rescaled a b x)) (seqOf (rescaled a b x)) q' i' := by
  obtain ⟨-, h2⟩ := MotifLengths.found_motif mem hmem argsort hsort size hsize noise x lo k hlo hk hrel hf
  obtain ⟨-, h2'⟩ := MotifLengths.found_motif mem' hmem' argsort' hsort' size' hsize' (|a| * noise) (rescaled a b x) lo k hlo (by rw [length_rescaled]; exact hk)
    (by
      rw [length_rescaled]
      exact hrel'.imp_right fun h => ⟨by rw [h.1, mul_zero], h.2⟩) hf'
  obtain ⟨r, r1, r2⟩ := h2 j hj
  obtain ⟨r', r1', r2'⟩ := h2' j hj
  have hkj := hkf (lo + j) (by omega) (by omega)
  have hm := (motif_rescaled (by omega) ha hkj _ _).mp r2'
  refine ⟨r, r', r1, r1', hm, (MotifLengths.unique r2 hm).1, ?_⟩
  rintro q i q' i' e rfl
  rw [zdist_rescaled_noise (by omega) ha noise hkj hm.1.1 hm.1.2.1]
  exact (MotifLengths.unique r2 hm).2 q i q' i' e rfl

/-! ### Concrete cases -/

/-- For integers, no factor from 1 on changes which subsequences count as flat. -/
theorem keepsFlat_int {m : Nat} (hm : 0 < m) (hm' : m < 10 ^ 6) {a : ℝ} (ha : 1 ≤ |a|) {s : List ℝ} (hs : ∀ v ∈ s, ∃ k : ℤ, v = k) : KeepsFlat m a s := by
  intro i hi
  constructor
  · intro h
    exact (le_mul_of_one_le_left (Real.sqrt_nonneg _) ha).trans h
  · intro h
    rw [noNearlyFlat_int s hs m hm hm' i hi h]
    simp

theorem noNearlyFlat_rescaled {m : Nat} (hm : 0 < m) {a b : ℝ} {s : List ℝ} (hk : KeepsFlat m a s) (hs : NoNearlyFlat s m) : NoNearlyFlat (rescaled a b s) m := by
  intro i hi hf
  rw [length_rescaled] at hi
  rw [std_affine m hm (seqOf s) (seqOf (rescaled a b s)) i a b (seqOf_map_affine m s a b i hi), hs i hi ((flat_rescaled hm hk hi).mp hf), mul_zero]

theorem consensusA_int : ∀ s ∈ consensusA, ∀ v ∈ s, ∃ k : ℤ, v = k := by
  intro s hs v hv
  have : v = ((0 : ℤ) : ℝ) ∨ v = ((1 : ℤ) : ℝ) ∨ v = ((2 : ℤ) : ℝ) ∨ v = ((3 : ℤ) : ℝ) ∨ v = ((4 : ℤ) : ℝ) ∨ v = ((5 : ℤ) : ℝ) := by
    simp only [consensusA, List.mem_cons, List.not_mem_nil, or_false] at hs
    push_cast
    rcases hs with rfl | rfl | rfl | rfl <;> simp only [List.mem_cons, List.not_mem_nil, or_false] at hv <;> tauto
  rcases this with h | h | h | h | h | h <;> exact ⟨_, h⟩

/-- Negative factors, larger for later series. -/
theorem factors_sign (i j : Nat) : 0 < (fun n : Nat => -(n + 1 : ℝ)) i * (fun n : Nat => -(n + 1 : ℝ)) j := by
  simp only [neg_mul_neg]
  positivity

theorem consensusA_keeps (i : Nat) (s : List ℝ) (h : consensusA[i]? = some s) : KeepsFlat 3 ((fun n : Nat => -(n + 1 : ℝ)) i) s :=
  keepsFlat_int (by norm_num) (by norm_num) (by
    simp only [abs_neg]
    rw [abs_of_nonneg (by positivity)]
    have : (0 : ℝ) ≤ i := Nat.cast_nonneg i
    linarith) (consensusA_int s (List.mem_of_getElem? h))

example := C120_consensus ZN.zeroMem ZN.zeroMem ZN.zeroMem_ok ZN.zeroMem_ok Ostinato.sortIdx Ostinato.sortIdx Ostinato.sortIdx_ok Ostinato.sortIdx_ok 3 le_rfl consensusA
  (by simp [consensusA]) consensusA_long (fun n => -(n + 1)) (fun n => 7 * n) factors_sign consensusA_keeps

example := C120_consensus_subset ZN.zeroMem ZN.zeroMem ZN.zeroMem_ok ZN.zeroMem_ok (fun _ _ l => l) (fun _ _ l => l.reverse) (fun _ _ l => List.Perm.refl l)
  (fun _ _ l => List.reverse_perm l) Ostinato.sortIdx Ostinato.sortIdx Ostinato.sortIdx_ok Ostinato.sortIdx_ok 3 3 le_rfl consensusA (by norm_num) le_rfl (by simp [consensusA])
  consensusA_long (fun n => -(n + 1)) (fun n => 7 * n) factors_sign consensusA_keeps

example : ∃ (o2 o2' : Any ZN ℝ) (RR : List (List (Fl ℝ))), o2.getRadii (some 2) = .ok RR ∧ o2'.getRadii (some 2) = .ok RR := by
  have l2 := long_all (a := fun n : Nat => -(n + 1 : ℝ)) (b := fun n : Nat => 7 * (n : ℝ)) consensusA_long
  obtain ⟨o, o1, o2, h1, h2, h3⟩ := consensus_finished (fun _ l => l.reverse) (fun _ l => List.reverse_perm l) consensusA consensusA_long
  obtain ⟨o', o1', o2', h1', h2', h3'⟩ := consensus_finished (fun _ l => l) (fun _ l => List.Perm.refl l) _ l2
  obtain ⟨RR, g1, g2⟩ := C120_anytime ZN.zeroMem ZN.zeroMem ZN.zeroMem_ok ZN.zeroMem_ok (fun _ l => l.reverse) (fun _ l => l) (fun _ l => List.reverse_perm l)
    (fun _ l => List.Perm.refl l) 3 (by norm_num) consensusA consensusA_long (by simp [consensusA]) _ _ factors_sign consensusA_keeps (some 2) (by simp [consensusA])
    _ _ consensus_half consensus_half o o1 o2 o' o1' o2' h1 h2 h3 h1' h2' h3'
  exact ⟨o2, o2', RR, g1, g2⟩

/-- The series is measured in thousandths, upside down; one correlation per subsequence is stored, and five. -/
example : ∃ found found' : List (Option (Nat × Nat)), ∃ r r', found[1]? = some r ∧ found'[1]? = some r' ∧ IsMotif 0 motifData 3 1 r' := by
  have hkf : ∀ m, 2 ≤ m → m ≤ 2 + 1 → KeepsFlat m (-1000) motifData := fun m h1 h2 => keepsFlat_int (by omega) (by omega) (by norm_num) motifData_int
  have hr' : ∀ m, 2 < m → m ≤ 2 + 1 → NoNearlyFlat (rescaled (-1000) 5 motifData) m :=
    fun m h1 h2 => noNearlyFlat_rescaled (by omega) (hkf m (by omega) h2) (motifData_reliable 1 (by norm_num) m h1 h2)
  obtain ⟨found, h⟩ := motifData_found 1 (by norm_num)
  obtain ⟨found', h', -⟩ := C59_constant ZN.zeroMem ZN.zeroMem_ok Ostinato.sortIdx Ostinato.sortIdx_ok 5 (by norm_num) (|(-1000 : ℝ)| * 0) (rescaled (-1000) 5 motifData) 2 1 le_rfl
    (by simp [motifData, rescaled]) (.inr ⟨by simp, hr'⟩) 0 (by simp [motifData, rescaled]) (by
      intro j hj
      have : j = 0 ∨ j = 1 ∨ j = 2 := by omega
      rcases this with rfl | rfl | rfl <;> simp [motifData, rescaled, seqOf])
  obtain ⟨r, r', r1, r2, r3, -⟩ := C120_lengths ZN.zeroMem ZN.zeroMem ZN.zeroMem_ok ZN.zeroMem_ok Ostinato.sortIdx Ostinato.sortIdx Ostinato.sortIdx_ok Ostinato.sortIdx_ok 1 5 le_rfl
    (by norm_num) 0 motifData 2 1 le_rfl (by simp [motifData]) (-1000) 5 (by norm_num) hkf (.inr ⟨rfl, motifData_reliable 1 (by norm_num)⟩) (.inr ⟨rfl, hr'⟩) found found' h h' 1 le_rfl
  exact ⟨found, found', r, r', r1, r2, r3⟩

end Verif
