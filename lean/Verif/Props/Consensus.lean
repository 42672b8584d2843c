import Verif.Props.OstinatoAnytime
import Verif.Props.OstinatoSubset
import Verif.Props.ZNormLaws

/-!
# C117: consensus motifs of related collections of series, and of the different functions
-/

namespace Verif
open Spec
namespace Consensus

/-! ### Order of the series -/

/-- Where the elements of a list are found in a permutation of it. -/
theorem perm_index {α : Type} {l l' : List α} (h : l.Perm l') : ∃ σ : Equiv.Perm Nat, ∀ i, l'[σ i]? = l[i]? := by
  induction h with
  | nil => exact ⟨Equiv.refl _, fun i => rfl⟩
  | @cons x l l' _ ih =>
    obtain ⟨σ, hσ⟩ := ih
    refine ⟨⟨fun i => match i with | 0 => 0 | i + 1 => σ i + 1, fun i => match i with | 0 => 0 | i + 1 => σ.symm i + 1, ?_, ?_⟩, ?_⟩
    · rintro (_ | i) <;> simp
    · rintro (_ | i) <;> simp
    · rintro (_ | i)
      · rfl
      · simpa using hσ i
  | swap x y l =>
    refine ⟨Equiv.swap 0 1, fun i => ?_⟩
    rcases i with _ | _ | i
    · rw [Equiv.swap_apply_left]; rfl
    · rw [show (0 + 1 : Nat) = 1 from rfl, Equiv.swap_apply_right]; rfl
    · rw [Equiv.swap_apply_of_ne_of_ne (by omega) (by omega)]; rfl
  | trans _ _ ih1 ih2 =>
    obtain ⟨σ, hσ⟩ := ih1
    obtain ⟨τ, hτ⟩ := ih2
    exact ⟨σ.trans τ, fun i => by rw [Equiv.trans_apply, hτ, hσ]⟩

section Transport
variable {m : Nat} {series series' : List (List ℝ)} {σ : Equiv.Perm Nat} (hσ : ∀ i, series'[σ i]? = series[i]?)
include hσ

theorem sub_transport (i a : Nat) : IsSub m series' (σ i) a ↔ IsSub m series i a := by
  unfold IsSub; rw [hσ]

theorem match_transport (i a j : Nat) (x : ℝ) : IsMatch m series' (σ i) a (σ j) x ↔ IsMatch m series i a j x := by
  unfold IsMatch; rw [hσ, hσ]

theorem length_transport (j : Nat) : σ j < series'.length ↔ j < series.length := by
  rw [← not_iff_not, not_lt, not_lt, ← List.getElem?_eq_none_iff, ← List.getElem?_eq_none_iff, hσ]

theorem radius_transport (i a : Nat) (r : ℝ) : IsRadius m series' (σ i) a r ↔ IsRadius m series i a r := by
  unfold IsRadius
  have : {x | ∃ j, j < series'.length ∧ j ≠ σ i ∧ IsMatch m series' (σ i) a j x} = {x | ∃ j, j < series.length ∧ j ≠ i ∧ IsMatch m series i a j x} := by
    ext x
    constructor
    · rintro ⟨j, h1, h2, h3⟩
      obtain ⟨j, rfl⟩ := σ.surjective j
      exact ⟨j, (length_transport hσ j).mp h1, fun e => h2 (by rw [e]), (match_transport hσ i a j x).mp h3⟩
    · rintro ⟨j, h1, h2, h3⟩
      exact ⟨σ j, (length_transport hσ j).mpr h1, fun e => h2 (σ.injective e), (match_transport hσ i a j x).mpr h3⟩
  rw [this]

theorem subset_transport_le (k i a : Nat) (r : ℝ) (h : ∃ J : Finset Nat, J.card = k - 1 ∧ ∀ j ∈ J, j < series.length ∧ j ≠ i ∧ ∃ x ≤ r, IsMatch m series i a j x) :
    ∃ J : Finset Nat, J.card = k - 1 ∧ ∀ j ∈ J, j < series'.length ∧ j ≠ σ i ∧ ∃ x ≤ r, IsMatch m series' (σ i) a j x := by
  obtain ⟨J, h1, h2⟩ := h
  refine ⟨J.map σ.toEmbedding, by rw [Finset.card_map, h1], fun j hj => ?_⟩
  obtain ⟨j, hj', rfl⟩ := Finset.mem_map.mp hj
  obtain ⟨g1, g2, x, g3, g4⟩ := h2 j hj'
  exact ⟨(length_transport hσ j).mpr g1, fun e => g2 (σ.injective e), x, g3, (match_transport hσ i a j x).mpr g4⟩

end Transport

theorem symm_index {series series' : List (List ℝ)} {σ : Equiv.Perm Nat} (hσ : ∀ i, series'[σ i]? = series[i]?) : ∀ i, series[σ.symm i]? = series'[i]? := fun i => by
  rw [← hσ, Equiv.apply_symm_apply]

theorem subset_transport {m : Nat} {series series' : List (List ℝ)} {σ : Equiv.Perm Nat} (hσ : ∀ i, series'[σ i]? = series[i]?) (k i a : Nat) (r : ℝ) :
    IsSubsetRadius m series' k (σ i) a r ↔ IsSubsetRadius m series k i a r := by
  unfold IsSubsetRadius
  have : {r | ∃ J : Finset Nat, J.card = k - 1 ∧ ∀ j ∈ J, j < series'.length ∧ j ≠ σ i ∧ ∃ x ≤ r, IsMatch m series' (σ i) a j x} =
      {r | ∃ J : Finset Nat, J.card = k - 1 ∧ ∀ j ∈ J, j < series.length ∧ j ≠ i ∧ ∃ x ≤ r, IsMatch m series i a j x} := by
    ext r
    refine ⟨fun h => ?_, fun h => subset_transport_le hσ k i a r h⟩
    have := subset_transport_le (m := m) (symm_index hσ) k (σ i) a r h
    rwa [Equiv.symm_apply_apply] at this
  rw [this]

theorem kradius_transport {m : Nat} {series series' : List (List ℝ)} {σ : Equiv.Perm Nat} (hσ : ∀ i, series'[σ i]? = series[i]?) (kBest : Option Nat) (i a : Nat) (r : ℝ) :
    IsKRadius m series' kBest (σ i) a r ↔ IsKRadius m series kBest i a r := by
  cases kBest with
  | none => exact radius_transport hσ i a r
  | some k => exact subset_transport hσ (k + 1) i a r

theorem kradius_unique {m : Nat} {series : List (List ℝ)} {kBest : Option Nat} {i a : Nat} {r r' : ℝ} (h : IsKRadius m series kBest i a r) (h' : IsKRadius m series kBest i a r') :
    r = r' := by
  cases kBest with
  | none => exact IsGreatest.unique h h'
  | some k => exact IsLeast.unique h h'

end Consensus

open Ostinato Consensus

/-- **C117, order.** The order of the series does not change the radius that `find_consensus_motif` reports. -/
theorem C117_order (mem mem' : ZN.Mem) (hmem : mem.Ok) (hmem' : mem'.Ok) (argsort argsort' : List (Fl ℝ) → List Nat) (hsort : ∀ l, IsArgsort l (argsort l))
    (hsort' : ∀ l, IsArgsort l (argsort' l)) (m : Nat) (hm : 3 ≤ m) (series series' : List (List ℝ)) (hp : series.Perm series') (hn : 2 ≤ series.length)
    (hs : ∀ s ∈ series, m ≤ s.length) :
    ∃ (r : ℝ) (i a i' a' : Nat), findConsensusMotif mem argsort (series.map (·.map .fin)) m = .ok ⟨.fin r, i, a⟩ ∧
      findConsensusMotif mem' argsort' (series'.map (·.map .fin)) m = .ok ⟨.fin r, i', a'⟩ := by
  obtain ⟨σ, hσ⟩ := perm_index hp
  obtain ⟨r, i, a, h1, h2, h3, h4⟩ := C55_optimum mem hmem argsort hsort m hm series hn hs
  obtain ⟨r', i', a', g1, g2, g3, g4⟩ := C55_optimum mem' hmem' argsort' hsort' m hm series' (by rw [← hp.length_eq]; exact hn) fun s h => hs s (hp.mem_iff.mpr h)
  have hle := g4 (σ i) a r ((sub_transport hσ i a).mpr h2) ((radius_transport hσ i a r).mpr h3)
  have hge := h4 (σ.symm i') a' r' ((sub_transport (symm_index hσ) i' a').mpr g2) ((radius_transport (symm_index hσ) i' a' r').mpr g3)
  obtain rfl := le_antisymm hge hle
  exact ⟨r, i, a, i', a', h1, g1⟩

/-- **C117, order.** The order of the series does not change the radius that `find_consensus_motif_subset` reports for `k` 2 or 3. -/
theorem C117_order_subset (mem mem' : ZN.Mem) (hmem : mem.Ok) (hmem' : mem'.Ok) (shuffle shuffle' : Nat → Nat → List Int → List Int)
    (hsh : ∀ i t l, (shuffle i t l).Perm l) (hsh' : ∀ i t l, (shuffle' i t l).Perm l) (argsort argsort' : List (Fl ℝ) → List Nat) (hsort : ∀ l, IsArgsort l (argsort l))
    (hsort' : ∀ l, IsArgsort l (argsort' l)) (m k : Nat) (hm : 3 ≤ m) (series series' : List (List ℝ)) (hp : series.Perm series') (hk : 2 ≤ k) (hk3 : k ≤ 3)
    (hkn : k ≤ series.length) (hs : ∀ s ∈ series, m ≤ s.length) :
    ∃ (r : ℝ) (i a i' a' : Nat), findConsensusMotifSubset mem shuffle argsort (series.map (·.map .fin)) m k = .ok ⟨.fin r, i, a⟩ ∧
      findConsensusMotifSubset mem' shuffle' argsort' (series'.map (·.map .fin)) m k = .ok ⟨.fin r, i', a'⟩ := by
  obtain ⟨σ, hσ⟩ := perm_index hp
  obtain ⟨r, i, a, h1, h2, h3, h4⟩ := C56_partial mem hmem shuffle hsh argsort hsort m k hm series hk hk3 hkn hs
  obtain ⟨r', i', a', g1, g2, g3, g4⟩ := C56_partial mem' hmem' shuffle' hsh' argsort' hsort' m k hm series' hk hk3 (by rw [← hp.length_eq]; exact hkn)
    fun s h => hs s (hp.mem_iff.mpr h)
  have hle := g4 (σ i) a r ((sub_transport hσ i a).mpr h2) ((subset_transport hσ k i a r).mpr h3)
  have hge := h4 (σ.symm i') a' r' ((sub_transport (symm_index hσ) i' a').mpr g2) ((subset_transport (symm_index hσ) k i' a' r').mpr g3)
  obtain rfl := le_antisymm hge hle
  exact ⟨r, i, a, i', a', h1, g1⟩

/-- **C117, order.** Two `OstinatoAnytime` objects for the same series in different orders, each after any calculations, interrupted anywhere, and then `calculate(1.0)`: their
`get_radii` are the same lists, in the order of the series. -/
theorem C117_order_anytime (mem mem' : ZN.Mem) (hmem : mem.Ok) (hmem' : mem'.Ok) (shuffle shuffle' : Nat → List Int → List Int) (hsh : ∀ t l, (shuffle t l).Perm l)
    (hsh' : ∀ t l, (shuffle' t l).Perm l) (m : Nat) (hm : 0 < m) (series series' : List (List ℝ)) (σ : Equiv.Perm Nat) (hσ : ∀ i, series'[σ i]? = series[i]?)
    (hs : ∀ s ∈ series, m ≤ s.length) (hn : 2 ≤ series.length) (kBest : Option Nat) (hk : ∀ k, kBest = some k → 1 ≤ k ∧ k < series.length)
    (calls calls' : List (PyNum × (Nat → Nat → Bool))) (hc : ∀ c ∈ calls, Fraction c.1) (hc' : ∀ c ∈ calls', Fraction c.1) (o o1 o2 o' o1' o2' : Any ZN ℝ)
    (ho : Any.init mem shuffle (series.map (·.map .fin)) m = .ok o) (ho1 : o.run (ZN.genOps mem) calls = .ok o1)
    (ho2 : o1.calculate (ZN.genOps mem) (fun _ _ => false) (.float (.fin 1)) = .ok o2)
    (ho' : Any.init mem' shuffle' (series'.map (·.map .fin)) m = .ok o') (ho1' : o'.run (ZN.genOps mem') calls' = .ok o1')
    (ho2' : o1'.calculate (ZN.genOps mem') (fun _ _ => false) (.float (.fin 1)) = .ok o2') :
    ∃ RR RR', o2.getRadii (kBest.map fun k : Nat => (k : Int)) = .ok RR ∧ o2'.getRadii (kBest.map fun k : Nat => (k : Int)) = .ok RR' ∧
      RR.length = series.length ∧ RR'.length = series'.length ∧ ∀ i < series.length, ∃ R, RR[i]? = some R ∧ RR'[σ i]? = some R := by
  have hlen : series'.length = series.length := by
    refine le_antisymm ?_ ?_ <;> by_contra hh <;> rw [not_le] at hh
    · have : (Finset.range series'.length).card ≤ (Finset.range series.length).card :=
        Finset.card_le_card_of_injOn σ.symm (fun j hj => by
          rw [Finset.mem_coe, Finset.mem_range] at hj ⊢
          exact (length_transport (symm_index hσ) j).mpr hj) σ.symm.injective.injOn
      simp at this; omega
    · have : (Finset.range series.length).card ≤ (Finset.range series'.length).card :=
        Finset.card_le_card_of_injOn σ (fun j hj => by
          rw [Finset.mem_coe, Finset.mem_range] at hj ⊢
          exact (length_transport hσ j).mpr hj) σ.injective.injOn
      simp at this; omega
  have hs' : ∀ s ∈ series', m ≤ s.length := by
    intro s h
    obtain ⟨i, hi⟩ := List.mem_iff_getElem?.mp h
    rw [← symm_index hσ] at hi
    exact hs s (List.mem_iff_getElem?.mpr ⟨_, hi⟩)
  obtain ⟨RR, h1, h2, h3⟩ := C57_exact mem hmem shuffle hsh m hm series hs hn kBest hk calls hc o o1 o2 ho ho1 ho2
  obtain ⟨RR', g1, g2, g3⟩ := C57_exact mem' hmem' shuffle' hsh' m hm series' hs' (by rw [hlen]; exact hn) kBest (by rw [hlen]; exact hk) calls' hc' o' o1' o2' ho' ho1' ho2'
  refine ⟨RR, RR', h1, g1, h2, g2, fun i hi => ?_⟩
  obtain ⟨s, hs0⟩ : ∃ s, series[i]? = some s := ⟨_, List.getElem?_eq_getElem hi⟩
  obtain ⟨R, r1, r2, r3⟩ := h3 i s hs0
  obtain ⟨R', r1', r2', r3'⟩ := g3 (σ i) s (by rw [hσ, hs0])
  refine ⟨R, r1, ?_⟩
  rw [r1']
  congr 1
  have hms := hs s (List.mem_iff_getElem?.mpr ⟨i, hs0⟩)
  refine List.ext_getElem? fun a => ?_
  by_cases ha : a + m ≤ s.length
  · obtain ⟨v, v1, r, v2, rfl⟩ := r3 a ha
    obtain ⟨v', v1', r', v2', rfl⟩ := r3' a ha
    rw [v1, v1', kradius_unique v2 ((kradius_transport hσ kBest i a r').mp v2')]
  · rw [List.getElem?_eq_none (by omega), List.getElem?_eq_none (by omega)]

/-! ### The three functions -/

namespace Consensus

/-- Radii for fewer series are not larger. -/
theorem subset_mono {m : Nat} {series : List (List ℝ)} {k k' i a : Nat} {r r' : ℝ} (hk : k ≤ k') (h : IsSubsetRadius m series k i a r) (h' : IsSubsetRadius m series k' i a r') :
    r ≤ r' := by
  obtain ⟨J, h1, h2⟩ := h'.1
  obtain ⟨J', h3, h4⟩ := Finset.exists_subset_card_eq (s := J) (n := k - 1) (by omega)
  exact h.2 ⟨J', h4, fun j hj => h2 j (h3 hj)⟩

/-- The radius over all series is that over as many as there are. -/
theorem radius_subset {m : Nat} {series : List (List ℝ)} (hs : ∀ s ∈ series, m ≤ s.length) {i a : Nat} (hi : i < series.length) {r : ℝ} (h : IsRadius m series i a r) :
    IsSubsetRadius m series series.length i a r := by
  refine ⟨⟨(Finset.range series.length).erase i, by rw [Finset.card_erase_of_mem (Finset.mem_range.mpr hi), Finset.card_range], fun j hj => ?_⟩, ?_⟩
  · obtain ⟨h1, h2⟩ := Finset.mem_erase.mp hj
    rw [Finset.mem_range] at h2
    obtain ⟨x, hx⟩ := isMatch_exists m series hs i a j hi h2
    exact ⟨h2, h1, x, h.2 ⟨j, h2, h1, hx⟩, hx⟩
  · rintro r' ⟨J, h1, h2⟩
    obtain ⟨j, g1, g2, g3⟩ := h.1
    have hJ : J ⊆ (Finset.range series.length).erase i := fun j hj => Finset.mem_erase.mpr ⟨(h2 j hj).2.1, Finset.mem_range.mpr (h2 j hj).1⟩
    have hJ := Finset.eq_of_subset_of_card_le hJ (by rw [h1, Finset.card_erase_of_mem (Finset.mem_range.mpr hi), Finset.card_range])
    obtain ⟨-, -, x, hx, hxm⟩ := h2 j (by rw [hJ]; exact Finset.mem_erase.mpr ⟨g2, Finset.mem_range.mpr g1⟩)
    rw [g3.unique hxm]
    exact hx

end Consensus

/-- **C117, agreement.** `find_consensus_motif` reports the smallest radius in the `get_radii` of an `OstinatoAnytime` after `calculate(1.0)`; before that, after any calculations,
interrupted anywhere, no radius in `get_radii` is smaller. -/
theorem C117_anytime (mem mem' : ZN.Mem) (hmem : mem.Ok) (hmem' : mem'.Ok) (argsort : List (Fl ℝ) → List Nat) (hsort : ∀ l, IsArgsort l (argsort l))
    (shuffle : Nat → List Int → List Int) (hsh : ∀ t l, (shuffle t l).Perm l) (m : Nat) (hm : 3 ≤ m) (series : List (List ℝ)) (hs : ∀ s ∈ series, m ≤ s.length)
    (hn : 2 ≤ series.length) (calls : List (PyNum × (Nat → Nat → Bool))) (hc : ∀ c ∈ calls, Fraction c.1) (o o1 o2 : Any ZN ℝ)
    (ho : Any.init mem' shuffle (series.map (·.map .fin)) m = .ok o) (ho1 : o.run (ZN.genOps mem') calls = .ok o1)
    (ho2 : o1.calculate (ZN.genOps mem') (fun _ _ => false) (.float (.fin 1)) = .ok o2) :
    ∃ (r : ℝ) (i a : Nat) (R1 R2 : List (List (Fl ℝ))), findConsensusMotif mem argsort (series.map (·.map .fin)) m = .ok ⟨.fin r, i, a⟩ ∧
      o1.getRadii none = .ok R1 ∧ (∀ R ∈ R1, ∀ v ∈ R, .fin r ≤ v) ∧
      o2.getRadii none = .ok R2 ∧ (∀ R ∈ R2, ∀ v ∈ R, .fin r ≤ v) ∧ ∃ R, R2[i]? = some R ∧ R[a]? = some (.fin r) := by
  obtain ⟨r, i, a, h1, h2, h3, h4⟩ := C55_optimum mem hmem argsort hsort m hm series hn hs
  obtain ⟨R1, e1, e2, e3⟩ := C57_upper mem' hmem' shuffle hsh m (by omega) series hs hn none (by simp) calls hc o o1 ho ho1
  obtain ⟨R2, f1, f2, f3⟩ := C57_exact mem' hmem' shuffle hsh m (by omega) series hs hn none (by simp) calls hc o o1 o2 ho ho1 ho2
  have low : ∀ RR : List (List (Fl ℝ)), Radii m series RR (fun x a v => ∃ r, IsKRadius m series none x a r ∧ .fin r ≤ v) → ∀ R ∈ RR, ∀ v ∈ R, .fin r ≤ v := by
    rintro RR ⟨g1, g2⟩ R hR v hv
    obtain ⟨x, hx⟩ := List.mem_iff_getElem?.mp hR
    obtain ⟨b, hb⟩ := List.mem_iff_getElem?.mp hv
    have hxl := (List.getElem?_eq_some_iff.mp hx).1
    obtain ⟨s, hs0⟩ : ∃ s, series[x]? = some s := ⟨_, List.getElem?_eq_getElem (by omega)⟩
    obtain ⟨R', k1, k2, k3⟩ := g2 x s hs0
    rw [hx] at k1
    cases k1
    have hbl := (List.getElem?_eq_some_iff.mp hb).1
    obtain ⟨v', k4, ρ, k5, k6⟩ := k3 b (by omega)
    rw [hb] at k4
    cases k4
    exact le_trans ((Fl.fin_le_fin _ _).mpr (h4 x b ρ ⟨s, hs0, by omega⟩ k5)) k6
  refine ⟨r, i, a, R1, R2, h1, e1, low R1 ⟨e2, e3⟩, f1, low R2 ⟨f2, fun x s hx => ?_⟩, ?_⟩
  · obtain ⟨R, k1, k2, k3⟩ := f3 x s hx
    refine ⟨R, k1, k2, fun b hb => ?_⟩
    obtain ⟨v, k4, ρ, k5, k6⟩ := k3 b hb
    exact ⟨v, k4, ρ, k5, k6.ge⟩
  · obtain ⟨s, hs0, hsa⟩ := h2
    obtain ⟨R, k1, k2, k3⟩ := f3 i s hs0
    obtain ⟨v, k4, ρ, k5, rfl⟩ := k3 a hsa
    exact ⟨R, k1, by rw [k4, IsGreatest.unique (show IsRadius m series i a ρ from k5) h3]⟩

/-- **C117, agreement.** The radius of `find_consensus_motif_subset` is not larger than that of `find_consensus_motif`, equal to it if `k` is the number of series, and not larger
for `k = 2` than for `k = 3`. -/
theorem C117_subset (mem mem' : ZN.Mem) (hmem : mem.Ok) (hmem' : mem'.Ok) (argsort argsort' : List (Fl ℝ) → List Nat) (hsort : ∀ l, IsArgsort l (argsort l))
    (hsort' : ∀ l, IsArgsort l (argsort' l)) (shuffle : Nat → Nat → List Int → List Int) (hsh : ∀ i t l, (shuffle i t l).Perm l) (m : Nat) (hm : 3 ≤ m)
    (series : List (List ℝ)) (hs : ∀ s ∈ series, m ≤ s.length) (hn : 3 ≤ series.length) :
    ∃ (r r2 r3 : ℝ) (i a i2 a2 i3 a3 : Nat), findConsensusMotif mem argsort (series.map (·.map .fin)) m = .ok ⟨.fin r, i, a⟩ ∧
      findConsensusMotifSubset mem' shuffle argsort' (series.map (·.map .fin)) m 2 = .ok ⟨.fin r2, i2, a2⟩ ∧
      findConsensusMotifSubset mem' shuffle argsort' (series.map (·.map .fin)) m 3 = .ok ⟨.fin r3, i3, a3⟩ ∧
      r2 ≤ r3 ∧ r3 ≤ r ∧ (series.length = 3 → r3 = r) := by
  obtain ⟨r, i, a, h1, h2, h3, h4⟩ := C55_optimum mem hmem argsort hsort m hm series (by omega) hs
  obtain ⟨r2, i2, a2, f1, f2, f3, f4⟩ := C56_partial mem' hmem' shuffle hsh argsort' hsort' m 2 hm series (by omega) (by omega) (by omega) hs
  obtain ⟨r3, i3, a3, g1, g2, g3, g4⟩ := C56_partial mem' hmem' shuffle hsh argsort' hsort' m 3 hm series (by omega) (by omega) (by omega) hs
  refine ⟨r, r2, r3, i, a, i2, a2, i3, a3, h1, f1, g1, ?_, ?_, fun he => ?_⟩
  · obtain ⟨ρ, k1, -⟩ := C56_radius_exists m 2 series (by omega) (by omega) hs i3 a3 g2
    exact (f4 i3 a3 ρ g2 k1).trans (subset_mono (by omega) k1 g3)
  · obtain ⟨ρ, k1, -⟩ := C56_radius_exists m 3 series (by omega) (by omega) hs i a h2
    exact (g4 i a ρ h2 k1).trans (subset_mono hn k1 (radius_subset hs ((sub_iff m series hs i a).mp h2).1 h3))
  · refine le_antisymm ?_ ?_
    · have := radius_subset hs ((sub_iff m series hs i a).mp h2).1 h3
      rw [he] at this
      exact g4 i a r h2 this
    · obtain ⟨ρ, k1, -⟩ := C55_radius_exists m series (by omega) hs i3 a3 g2
      have := radius_subset hs ((sub_iff m series hs i3 a3).mp g2).1 k1
      rw [he] at this
      rw [IsLeast.unique g3 this]
      exact h4 i3 a3 ρ g2 k1

/-- **C117, agreement.** For two series `find_consensus_motif_subset` with `k = 2` reports the radius that `find_consensus_motif` reports. -/
theorem C117_subset_pair (mem mem' : ZN.Mem) (hmem : mem.Ok) (hmem' : mem'.Ok) (argsort argsort' : List (Fl ℝ) → List Nat) (hsort : ∀ l, IsArgsort l (argsort l))
    (hsort' : ∀ l, IsArgsort l (argsort' l)) (shuffle : Nat → Nat → List Int → List Int) (hsh : ∀ i t l, (shuffle i t l).Perm l) (m : Nat) (hm : 3 ≤ m)
    (series : List (List ℝ)) (hs : ∀ s ∈ series, m ≤ s.length) (hn : series.length = 2) :
    ∃ (r : ℝ) (i a i2 a2 : Nat), findConsensusMotif mem argsort (series.map (·.map .fin)) m = .ok ⟨.fin r, i, a⟩ ∧
      findConsensusMotifSubset mem' shuffle argsort' (series.map (·.map .fin)) m 2 = .ok ⟨.fin r, i2, a2⟩ := by
  obtain ⟨r, i, a, h1, h2, h3, h4⟩ := C55_optimum mem hmem argsort hsort m hm series (by omega) hs
  obtain ⟨r2, i2, a2, f1, f2, f3, f4⟩ := C56_partial mem' hmem' shuffle hsh argsort' hsort' m 2 hm series (by omega) (by omega) (by omega) hs
  have e : r2 = r := by
    refine le_antisymm ?_ ?_
    · have := radius_subset hs ((sub_iff m series hs i a).mp h2).1 h3
      rw [hn] at this
      exact f4 i a r h2 this
    · obtain ⟨ρ, k1, -⟩ := C55_radius_exists m series (by omega) hs i2 a2 f2
      have := radius_subset hs ((sub_iff m series hs i2 a2).mp f2).1 k1
      rw [hn] at this
      rw [IsLeast.unique f3 this]
      exact h4 i2 a2 ρ f2 k1
  exact ⟨r, i, a, i2, a2, h1, e ▸ f1⟩

/-! ### More series -/

namespace Consensus
open Finset

open Classical in
/-- The z-normalised subsequence, 0 if it is flat. -/
noncomputable def znormed (m : Nat) (s : Nat → ℝ) (j k : Nat) : ℝ := if Flat m s j then 0 else (s (j + k) - mean m s j) / std m s j

theorem std_ne_zero {m : Nat} {s : Nat → ℝ} {j : Nat} (h : ¬ Flat m s j) : std m s j ≠ 0 := fun e => h (by unfold Flat; rw [e]; positivity)

theorem sum_znormed {m : Nat} (hm : 0 < m) {s : Nat → ℝ} {j : Nat} (h : ¬ Flat m s j) : ∑ k ∈ range m, ((s (j + k) - mean m s j) / std m s j) ^ 2 = m := by
  have : ∀ k ∈ range m, ((s (j + k) - mean m s j) / std m s j) ^ 2 = 1 / std m s j ^ 2 * (s (j + k) - mean m s j) ^ 2 := fun k _ => by rw [div_pow]; ring
  rw [Finset.sum_congr rfl this, ← Finset.mul_sum, sum_centered m hm]
  have := std_ne_zero h
  field_simp

theorem zflat_sum {m : Nat} (hm : 0 < m) (s q : Nat → ℝ) (i j : Nat) : zflat m s q i j = ∑ k ∈ range m, (znormed m s j k - znormed m q i k) ^ 2 := by
  unfold zflat znormed
  by_cases h1 : Flat m q i <;> by_cases h2 : Flat m s j <;> simp only [h1, h2, and_true, and_false, or_true, or_false, if_true, if_false, sub_zero,
    zero_sub, neg_sq, and_self, or_self]
  · simp
  · exact (sum_znormed hm h2).symm
  · exact (sum_znormed hm h1).symm
  · rfl

theorem minkowski (m : Nat) (f g : Nat → ℝ) : √(∑ k ∈ range m, (f k + g k) ^ 2) ≤ √(∑ k ∈ range m, f k ^ 2) + √(∑ k ∈ range m, g k ^ 2) := by
  have hf : 0 ≤ ∑ k ∈ range m, f k ^ 2 := Finset.sum_nonneg fun _ _ => sq_nonneg _
  have hg : 0 ≤ ∑ k ∈ range m, g k ^ 2 := Finset.sum_nonneg fun _ _ => sq_nonneg _
  refine Real.sqrt_le_iff.mpr ⟨by positivity, ?_⟩
  have h := Real.sum_mul_le_sqrt_mul_sqrt (range m) f g
  have e : ∑ k ∈ range m, (f k + g k) ^ 2 = ∑ k ∈ range m, f k ^ 2 + ∑ k ∈ range m, g k ^ 2 + 2 * ∑ k ∈ range m, f k * g k := by
    rw [Finset.mul_sum, ← Finset.sum_add_distrib, ← Finset.sum_add_distrib]
    exact Finset.sum_congr rfl fun k _ => by ring
  rw [e, add_sq, Real.sq_sqrt hf, Real.sq_sqrt hg]
  linarith

/-- The distances reported and the distances before small ones are replaced by 0. -/
theorem zdist_bounds (m : Nat) (s q : Nat → ℝ) (i j : Nat) : zdist m 0 s q i j ≤ √(zflat m s q i j) ∧ √(zflat m s q i j) ≤ zdist m 0 s q i j + 1 / 10 ^ 6 := by
  have e : znoise m 0 s q i j = zflat m s q i j := by simp [znoise]
  unfold zdist
  rw [e]
  split
  · rename_i h
    rw [Real.sqrt_zero, zero_add]
    refine ⟨Real.sqrt_nonneg _, Real.sqrt_le_iff.mpr ⟨by positivity, ?_⟩⟩
    rw [div_pow, one_pow, ← pow_mul]
    exact h.le
  · exact ⟨le_rfl, le_add_of_nonneg_right (by positivity)⟩

/-- The triangle inequality for the distances reported; distances below 10⁻⁶ are reported as 0. -/
theorem zdist_triangle {m : Nat} (hm : 0 < m) (x y z : Nat → ℝ) (i j k : Nat) :
    zdist m 0 x z k i ≤ zdist m 0 x y j i + zdist m 0 y z k j + 2 / 10 ^ 6 := by
  refine (zdist_bounds m x z k i).1.trans ?_
  have h1 := (zdist_bounds m x y j i).2
  have h2 := (zdist_bounds m y z k j).2
  have h3 := minkowski m (fun t => znormed m x i t - znormed m y j t) (fun t => znormed m y j t - znormed m z k t)
  simp only [sub_add_sub_cancel] at h3
  rw [zflat_sum hm] at h1 h2 ⊢
  linarith

end Consensus

/-- **C117, more series.** Series are left out of a collection: the radius that `find_consensus_motif` reports at most doubles (apart from 2 · 10⁻⁶, because distances below 10⁻⁶ are
reported as 0), and if the motif found in the larger collection is in a series that is not left out it does not grow. -/
theorem C117_fewer_series (mem mem' : ZN.Mem) (hmem : mem.Ok) (hmem' : mem'.Ok) (argsort argsort' : List (Fl ℝ) → List Nat) (hsort : ∀ l, IsArgsort l (argsort l))
    (hsort' : ∀ l, IsArgsort l (argsort' l)) (m : Nat) (hm : 3 ≤ m) (series series' : List (List ℝ)) (f : Nat → Nat) (hf : Function.Injective f)
    (hsub : ∀ i < series.length, series'[f i]? = series[i]?) (hn : 2 ≤ series.length) (hs : ∀ s ∈ series', m ≤ s.length) :
    ∃ (r r' : ℝ) (i a i' a' : Nat), findConsensusMotif mem argsort (series.map (·.map .fin)) m = .ok ⟨.fin r, i, a⟩ ∧
      findConsensusMotif mem' argsort' (series'.map (·.map .fin)) m = .ok ⟨.fin r', i', a'⟩ ∧ r ≤ 2 * r' + 2 / 10 ^ 6 ∧
      ((∃ j < series.length, f j = i') → r ≤ r') := by
  have hlt : ∀ i < series.length, f i < series'.length := fun i hi => by
    have := hsub i hi
    rw [List.getElem?_eq_getElem hi] at this
    exact (List.getElem?_eq_some_iff.mp this).1
  have hs0 : ∀ s ∈ series, m ≤ s.length := by
    intro s h
    obtain ⟨i, hi⟩ := List.mem_iff_getElem?.mp h
    have := hsub i (List.getElem?_eq_some_iff.mp hi).1
    rw [hi] at this
    exact hs s (List.mem_iff_getElem?.mpr ⟨_, this⟩)
  have hn' : 2 ≤ series'.length := by
    have h0 := hlt 0 (by omega)
    have h1 := hlt 1 (by omega)
    have : f 0 ≠ f 1 := fun e => absurd (hf e) (by omega)
    omega
  have hmatch : ∀ i < series.length, ∀ j < series.length, ∀ a x, IsMatch m series' (f i) a (f j) x ↔ IsMatch m series i a j x := by
    intro i hi j hj a x
    unfold IsMatch
    rw [hsub i hi, hsub j hj]
  obtain ⟨r, i, a, h1, h2, h3, h4⟩ := C55_optimum mem hmem argsort hsort m hm series hn hs0
  obtain ⟨r', i', a', g1, g2, g3, g4⟩ := C55_optimum mem' hmem' argsort' hsort' m hm series' hn' hs
  have hi' := ((sub_iff m series' hs i' a').mp g2).1
  have hr' : 0 ≤ r' := by
    obtain ⟨j, -, -, k⟩ := g3.1
    exact match_nonneg k
  have hin : (∃ j < series.length, f j = i') → r ≤ r' := by
    rintro ⟨j, hj, rfl⟩
    have hsj : IsSub m series j a' := by
      obtain ⟨s, k1, k2⟩ := g2
      exact ⟨s, by rw [← hsub j hj, k1], k2⟩
    obtain ⟨ρ, k1, -⟩ := C55_radius_exists m series hn hs0 j a' hsj
    refine (h4 j a' ρ hsj k1).trans ?_
    obtain ⟨l, l1, l2, l3⟩ := k1.1
    exact g3.2 ⟨f l, hlt l l1, fun e => l2 (hf e), (hmatch j hj l l1 a' ρ).mpr l3⟩
  refine ⟨r, r', i, a, i', a', h1, g1, ?_, hin⟩
  by_cases hex : ∃ j < series.length, f j = i'
  · have := hin hex
    have h6 : (0 : ℝ) < 2 / 10 ^ 6 := by positivity
    linarith
  · push Not at hex
    obtain ⟨x0, hx0⟩ := isMatch_exists m series' hs i' a' (f 0) hi' (hlt 0 (by omega))
    have hx0r := g3.2 ⟨f 0, hlt 0 (by omega), hex 0 (by omega), hx0⟩
    obtain ⟨c, s0, c1, c2, ⟨b, b1, b2⟩, -⟩ := hx0
    have hsub0 : IsSub m series 0 b := ⟨s0, by rw [← hsub 0 (by omega), c2], b1⟩
    obtain ⟨ρ, k1, -⟩ := C55_radius_exists m series hn hs0 0 b hsub0
    refine (h4 0 b ρ hsub0 k1).trans ?_
    obtain ⟨l, l1, l2, p, q, q1, q2, q3⟩ := k1.1
    obtain ⟨xl, hxl⟩ := isMatch_exists m series' hs i' a' (f l) hi' (hlt l l1)
    have hxlr := g3.2 ⟨f l, hlt l l1, hex l l1, hxl⟩
    obtain ⟨c', sl, c1', c2', ⟨d, d1, d2⟩, -⟩ := hxl
    rw [c1] at c1'
    cases c1'
    rw [hsub 0 (by omega), q1] at c2
    cases c2
    rw [hsub l l1, q2] at c2'
    cases c2'
    have h5 := q3.2 ⟨d, d1, rfl⟩
    have h6 := zdist_triangle (m := m) (by omega) (seqOf s0) (seqOf c) (seqOf q) b a' d
    rw [zdist_symm m 0 (seqOf s0) (seqOf c), ← b2, ← d2] at h6
    linarith

/-! ### Concrete cases -/

/-- Four series with different lengths, one flat. -/
def consensusA : List (List ℝ) := [[0, 0, 1, 5], [2, 2, 2], [0, 1, 0, 3, 1], [4, 4, 5]]
/-- The same in another order. -/
def consensusB : List (List ℝ) := [[4, 4, 5], [0, 0, 1, 5], [2, 2, 2], [0, 1, 0, 3, 1]]

theorem consensus_perm : consensusA.Perm consensusB := by
  exact (List.perm_append_comm (l₁ := [[0, 0, 1, 5], [2, 2, 2], [0, 1, 0, 3, 1]]) (l₂ := [[4, 4, 5]]))

theorem consensusA_long : ∀ s ∈ consensusA, 3 ≤ s.length := by simp [consensusA]
theorem consensusB_long : ∀ s ∈ consensusB, 3 ≤ s.length := by simp [consensusB]

example := C117_order ZN.zeroMem ZN.zeroMem ZN.zeroMem_ok ZN.zeroMem_ok Ostinato.sortIdx Ostinato.sortIdx Ostinato.sortIdx_ok Ostinato.sortIdx_ok 3 le_rfl consensusA consensusB
  consensus_perm (by simp [consensusA]) consensusA_long

example := C117_order_subset ZN.zeroMem ZN.zeroMem ZN.zeroMem_ok ZN.zeroMem_ok (fun _ _ l => l) (fun _ _ l => l.reverse) (fun _ _ l => List.Perm.refl l)
  (fun _ _ l => List.reverse_perm l) Ostinato.sortIdx Ostinato.sortIdx Ostinato.sortIdx_ok Ostinato.sortIdx_ok 3 3 le_rfl consensusA consensusB consensus_perm (by norm_num) le_rfl
  (by simp [consensusA]) consensusA_long

/-- The calculations in the examples below: half of it, interrupted, and then all. -/
theorem consensus_finished (shuffle : Nat → List Int → List Int) (hsh : ∀ t l, (shuffle t l).Perm l) (series : List (List ℝ)) (hs : ∀ s ∈ series, 3 ≤ s.length) :
    ∃ o o1 o2 : Any ZN ℝ, Any.init ZN.zeroMem shuffle (series.map (·.map .fin)) (3 : Nat) = .ok o ∧
      o.run (ZN.genOps ZN.zeroMem) [((.float (.fin (1 / 2)) : PyNum), fun (_ n : Nat) => n == 1)] = .ok o1 ∧
      o1.calculate (ZN.genOps ZN.zeroMem) (fun _ _ => false) (.float (.fin 1)) = .ok o2 := by
  have hc : ∀ c ∈ [((.float (.fin (1 / 2)) : PyNum), fun (_ n : Nat) => n == 1), (.float (.fin 1), fun _ _ => false)], Fraction c.1 := by
    simp [Fraction]; norm_num
  obtain ⟨o, o2, h1, h2⟩ := C57_total ZN.zeroMem ZN.zeroMem_ok shuffle hsh 3 (by norm_num) series hs _ hc
  unfold Any.run at h2
  rw [List.foldlM_cons, bind_ok_iff] at h2
  obtain ⟨o1, h3, h4⟩ := h2
  rw [List.foldlM_cons, bind_ok_iff] at h4
  obtain ⟨o2', h4, h5⟩ := h4
  refine ⟨o, o1, o2', h1, ?_, h4⟩
  unfold Any.run
  rw [List.foldlM_cons, h3]
  rfl

theorem consensus_half : ∀ c ∈ [((.float (.fin (1 / 2)) : PyNum), fun (_ n : Nat) => n == 1)], Fraction c.1 := by simp [Fraction]; norm_num

example : ∃ (r : ℝ) (i a : Nat), findConsensusMotif ZN.zeroMem Ostinato.sortIdx (consensusA.map (·.map .fin)) (3 : Nat) = .ok ⟨.fin r, i, a⟩ := by
  obtain ⟨o, o1, o2, h1, h2, h3⟩ := consensus_finished (fun _ l => l.reverse) (fun _ l => List.reverse_perm l) consensusA consensusA_long
  obtain ⟨r, i, a, _, _, h, -⟩ := C117_anytime ZN.zeroMem ZN.zeroMem ZN.zeroMem_ok ZN.zeroMem_ok Ostinato.sortIdx Ostinato.sortIdx_ok (fun _ l => l.reverse)
    (fun _ l => List.reverse_perm l) 3 le_rfl consensusA consensusA_long (by simp [consensusA]) _ consensus_half o o1 o2 h1 h2 h3
  exact ⟨r, i, a, h⟩

/-- Two series, swapped. -/
example : ∃ (o2 o2' : Any ZN ℝ) (RR RR' : List (List (Fl ℝ))), o2.getRadii none = .ok RR ∧ o2'.getRadii none = .ok RR' ∧ ∀ i < 2, ∃ R, RR[i]? = some R ∧ RR'[Equiv.swap 0 1 i]? = some R := by
  have l1 : ∀ s ∈ ([[0, 0, 1, 5], [2, 2, 2]] : List (List ℝ)), 3 ≤ s.length := by simp
  have l2 : ∀ s ∈ ([[2, 2, 2], [0, 0, 1, 5]] : List (List ℝ)), 3 ≤ s.length := by simp
  obtain ⟨o, o1, o2, h1, h2, h3⟩ := consensus_finished (fun _ l => l.reverse) (fun _ l => List.reverse_perm l) _ l1
  obtain ⟨o', o1', o2', h1', h2', h3'⟩ := consensus_finished (fun _ l => l) (fun _ l => List.Perm.refl l) _ l2
  obtain ⟨RR, RR', g1, g2, -, -, g3⟩ := C117_order_anytime ZN.zeroMem ZN.zeroMem ZN.zeroMem_ok ZN.zeroMem_ok (fun _ l => l.reverse) (fun _ l => l) (fun _ l => List.reverse_perm l)
    (fun _ l => List.Perm.refl l) 3 (by norm_num) _ _ (Equiv.swap 0 1) (fun i => by
      rcases i with _ | _ | i
      · rw [Equiv.swap_apply_left]; rfl
      · rw [show (0 + 1 : Nat) = 1 from rfl, Equiv.swap_apply_right]; rfl
      · rw [Equiv.swap_apply_of_ne_of_ne (by omega) (by omega)]; rfl) l1 (by simp) none (by simp) _ _ consensus_half consensus_half o o1 o2 o' o1' o2' h1 h2 h3 h1' h2' h3'
  exact ⟨o2, o2', RR, RR', g1, g2, g3⟩

example := C117_subset ZN.zeroMem ZN.zeroMem ZN.zeroMem_ok ZN.zeroMem_ok Ostinato.sortIdx Ostinato.sortIdx Ostinato.sortIdx_ok Ostinato.sortIdx_ok (fun _ _ l => l.reverse)
  (fun _ _ l => List.reverse_perm l) 3 le_rfl consensusA consensusA_long (by simp [consensusA])

example := C117_subset_pair ZN.zeroMem ZN.zeroMem ZN.zeroMem_ok ZN.zeroMem_ok Ostinato.sortIdx Ostinato.sortIdx Ostinato.sortIdx_ok Ostinato.sortIdx_ok (fun _ _ l => l)
  (fun _ _ l => List.Perm.refl l) 3 le_rfl [[0, 0, 1, 5], [2, 2, 2]] (by simp) rfl

/-- The flat series and the last one are left out. -/
example := C117_fewer_series ZN.zeroMem ZN.zeroMem ZN.zeroMem_ok ZN.zeroMem_ok Ostinato.sortIdx Ostinato.sortIdx Ostinato.sortIdx_ok Ostinato.sortIdx_ok 3 le_rfl
  [[0, 0, 1, 5], [0, 1, 0, 3, 1]] consensusA (fun i => 2 * i) (fun _ _ h => by simpa using h)
  (fun i hi => by
    match i, hi with
    | 0, _ => rfl
    | 1, _ => rfl) (by simp) consensusA_long

end Verif
