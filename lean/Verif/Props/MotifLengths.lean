import Verif.Props.ValmodMain
import Verif.Props.EndToEnd

/-!
# C119: motifs of variable length and matrix profiles
-/

namespace Verif
open Spec Valmod
namespace MotifLengths

/-- A motif is the lowest point of the matrix profile. -/
theorem lowest {noise : ℝ} {x : List ℝ} {m b : Nat} {p : MP ℝ}
    (hp : IsProfile (fun r c => zdist m noise (seqOf x) (seqOf x) r c) (x.length + 1 - m) (x.length + 1 - m) (fun r c => Apart b r c) p) {a : Option (Nat × Nat)}
    (ha : IsMotif noise x m b a) :
    (a = none → ∀ v ∈ MP.merged p.left p.right, v = .pinf) ∧
      ∀ q i, a = some (q, i) → ∃ v : ℝ, (MP.merged p.left p.right)[q]? = some (.fin v) ∧ (MP.merged p.left p.right)[i]? = some (.fin v) ∧
        ∀ u ∈ MP.merged p.left p.right, .fin v ≤ u := by
  have far : ∀ r c, r < x.length + 1 - m → c < x.length + 1 - m → Apart b r c → FarPair x.length m b r c := by
    intro r c hr hc h
    refine ⟨by omega, by omega, ?_⟩
    unfold Apart at h
    rcases abs_cases ((r : Int) - c) with ⟨e, -⟩ | ⟨e, -⟩ <;> rw [e] at h <;> omega
  have apart : ∀ r c, FarPair x.length m b r c → r < x.length + 1 - m ∧ c < x.length + 1 - m ∧ Apart b r c := by
    rintro r c ⟨h1, h2, h3⟩
    refine ⟨by omega, by omega, ?_⟩
    unfold Apart
    rcases abs_cases ((r : Int) - c) with ⟨e, e'⟩ | ⟨e, e'⟩ <;> rw [e] <;> omega
  have hlen : (MP.merged p.left p.right).length ≤ x.length + 1 - m := by
    unfold MP.merged
    rw [List.length_zipWith, hp.lengths.1]
    omega
  have ent : ∀ u ∈ MP.merged p.left p.right, ∃ c < x.length + 1 - m, ∃ i, IsNearest (fun r => zdist m noise (seqOf x) (seqOf x) r c) (x.length + 1 - m) (fun r => Apart b r c) u i := by
    intro u hu
    obtain ⟨c, hc⟩ := List.mem_iff_getElem?.mp hu
    have hcl : c < x.length + 1 - m := lt_of_lt_of_le (List.getElem?_eq_some_iff.mp hc).1 hlen
    obtain ⟨_, _, v, _, _, i, -, -, h3, -, -, -, -, -, h9⟩ := hp.entries c hcl
    rw [hc] at h3
    cases h3
    exact ⟨c, hcl, i, h9⟩
  refine ⟨?_, ?_⟩
  · rintro rfl u hu
    obtain ⟨c, hc, i, h | ⟨r, h1, h2, -⟩⟩ := ent u hu
    · exact h.1
    · exact absurd (far r c h1 hc h2) (ha r c)
  · rintro q i rfl
    obtain ⟨h1, h2⟩ := ha
    have at' : ∀ q i, FarPair x.length m b q i → (∀ q' i', FarPair x.length m b q' i' → zdist m noise (seqOf x) (seqOf x) q i ≤ zdist m noise (seqOf x) (seqOf x) q' i') →
        (MP.merged p.left p.right)[i]? = some (.fin (zdist m noise (seqOf x) (seqOf x) q i)) := by
      intro q i hf hmin
      obtain ⟨a1, a2, a3⟩ := apart q i hf
      obtain ⟨_, _, v, _, _, _, -, -, h3, -, -, -, -, -, h9⟩ := hp.entries i a2
      rw [h3]
      rcases h9 with ⟨-, h⟩ | ⟨r, r1, r2, rfl, -, r5⟩
      · exact absurd a3 (h q a1)
      · exact congrArg (fun z => some (Fl.fin z)) (le_antisymm (r5 q a1 a3) (hmin r i (far r i r1 a2 r2)))
    have hswap : FarPair x.length m b i q := ⟨h1.2.1, h1.1, h1.2.2.symm⟩
    refine ⟨zdist m noise (seqOf x) (seqOf x) q i, ?_, at' q i h1 h2, fun u hu => ?_⟩
    · rw [zdist_symm m noise _ _ q i]
      exact at' i q hswap fun q' i' h => by rw [zdist_symm m noise _ _ i q]; exact h2 q' i' h
    · obtain ⟨c, hc, _, ⟨rfl, -⟩ | ⟨r, r1, r2, rfl, -⟩⟩ := ent u hu
      · exact (Fl.le_pinf_iff _).mpr (by simp)
      · exact (Fl.fin_le_fin _ _).mpr (h2 r c (far r c r1 hc r2))

theorem unique {noise : ℝ} {x : List ℝ} {m b : Nat} {a a' : Option (Nat × Nat)} (ha : IsMotif noise x m b a) (ha' : IsMotif noise x m b a') :
    (a = none ↔ a' = none) ∧ ∀ q i q' i', a = some (q, i) → a' = some (q', i') → zdist m noise (seqOf x) (seqOf x) q i = zdist m noise (seqOf x) (seqOf x) q' i' := by
  refine ⟨⟨?_, ?_⟩, ?_⟩
  · rintro rfl
    cases a' with
    | none => rfl
    | some z => exact absurd ha'.1 (ha z.1 z.2)
  · rintro rfl
    cases a with
    | none => rfl
    | some z => exact absurd ha.1 (ha' z.1 z.2)
  · rintro q i q' i' rfl rfl
    exact le_antisymm (ha.2 q' i' ha'.1) (ha'.2 q i ha.1)

/-- What a call that returns has found. -/
theorem found_motif (mem : ZN.Mem) (hmem : mem.Ok) (argsort : List (Fl ℝ) → List Nat) (hsort : ∀ v, IsArgsort v (argsort v)) (size : Int) (hsize : 1 ≤ size) (noise : ℝ)
    (x : List ℝ) (lo k : Nat) (hlo : 2 ≤ lo) (hk : lo + k ≤ x.length) (hrel : (x.length : Int) + 1 - lo ≤ size ∨ (noise = 0 ∧ ∀ m, lo < m → m ≤ lo + k → NoNearlyFlat x m))
    {found : List (Option (Nat × Nat))} (hf : findMotifs mem argsort (x.map .fin) lo ((lo : Int) + k) size noise = .ok found) :
    found.length = k + 1 ∧ ∀ j, j ≤ k → ∃ a, found[j]? = some a ∧ IsMotif noise x (lo + j) ((lo + 1) / 2) a := by
  rcases C59_partial mem hmem argsort hsort size hsize noise x lo k hlo hk hrel with ⟨f, h1, h2⟩ | h
  · rw [hf] at h1
    cases h1
    exact h2
  · rw [hf] at h
    cases h

end MotifLengths

/-- **C119, matrix profiles.** `find_variable_length_motifs` returns (either all correlations are stored, or there is no noise elimination and no subsequence that is nearly flat). For
each of the lengths a calculator makes the self-join matrix profile with a trivial match buffer of half the smallest length, by columns or by diagonals. The two positions found
for the length have the same entry, and it is the smallest of the matrix profile; if nothing was found, all entries are `+inf`. -/
theorem C119_profile (mem mem' : ZN.Mem) (hmem : mem.Ok) (hmem' : mem'.Ok) (argsort : List (Fl ℝ) → List Nat) (hsort : ∀ v, IsArgsort v (argsort v)) (size : Int) (hsize : 1 ≤ size)
    (noise : ℝ) (x : List ℝ) (lo k : Nat) (hlo : 2 ≤ lo) (hk : lo + k ≤ x.length)
    (hrel : (x.length : Int) + 1 - lo ≤ size ∨ (noise = 0 ∧ ∀ m, lo < m → m ≤ lo + k → NoNearlyFlat x m)) (found : List (Option (Nat × Nat)))
    (hf : findMotifs mem argsort (x.map .fin) lo ((lo : Int) + k) size noise = .ok found) (shuffle : List Int → List Int) (hsh : ∀ l, (shuffle l).Perm l) (byColumns : Bool)
    (j : Nat) (hj : j ≤ k) (hroom : (lo + 1) / 2 + (lo + j) ≤ x.length) :
    ∃ p a, matrixProfile (ZN.genOps mem') (ZN.prepare mem' noise) shuffle byColumns ((lo + j : Nat) : Int) (x.map .fin) none (some (((lo + 1) / 2 : Nat) : Int)) = .ok p ∧
      found[j]? = some a ∧ (a = none → ∀ v ∈ MP.merged p.left p.right, v = .pinf) ∧
      ∀ q i, a = some (q, i) → ∃ v : ℝ, (MP.merged p.left p.right)[q]? = some (.fin v) ∧ (MP.merged p.left p.right)[i]? = some (.fin v) ∧
        ∀ u ∈ MP.merged p.left p.right, .fin v ≤ u := by
  obtain ⟨-, h2⟩ := MotifLengths.found_motif mem hmem argsort hsort size hsize noise x lo k hlo hk hrel hf
  obtain ⟨a, a1, a2⟩ := h2 j hj
  obtain ⟨p, p1, p2⟩ := C60_znorm mem' hmem' noise shuffle hsh byColumns (lo + j) (by omega) x none (by omega) (by simp) (some (((lo + 1) / 2 : Nat) : Int)) (by
    intro _
    simp only [Option.getD_some]
    omega)
  refine ⟨p, a, p1, a1, ?_⟩
  simp only [Option.getD_none, Option.getD_some, true_imp_iff] at p2
  exact MotifLengths.lowest p2 a2

/-- **C119, parameters.** Two calls of `find_variable_length_motifs` that return, with the same series, smallest length and noise, but with different largest lengths, different
numbers of stored correlations, and ties broken differently: for each common length both have found nothing or pairs at the same distance. -/
theorem C119_parameters (mem mem' : ZN.Mem) (hmem : mem.Ok) (hmem' : mem'.Ok) (argsort argsort' : List (Fl ℝ) → List Nat) (hsort : ∀ v, IsArgsort v (argsort v))
    (hsort' : ∀ v, IsArgsort v (argsort' v)) (size size' : Int) (hsize : 1 ≤ size) (hsize' : 1 ≤ size') (noise : ℝ) (x : List ℝ) (lo k k' : Nat) (hlo : 2 ≤ lo)
    (hk : lo + k ≤ x.length) (hk' : lo + k' ≤ x.length) (hrel : (x.length : Int) + 1 - lo ≤ size ∨ (noise = 0 ∧ ∀ m, lo < m → m ≤ lo + k → NoNearlyFlat x m))
    (hrel' : (x.length : Int) + 1 - lo ≤ size' ∨ (noise = 0 ∧ ∀ m, lo < m → m ≤ lo + k' → NoNearlyFlat x m)) (found found' : List (Option (Nat × Nat)))
    (hf : findMotifs mem argsort (x.map .fin) lo ((lo : Int) + k) size noise = .ok found)
    (hf' : findMotifs mem' argsort' (x.map .fin) lo ((lo : Int) + k') size' noise = .ok found') (j : Nat) (hj : j ≤ k) (hj' : j ≤ k') :
    ∃ a a', found[j]? = some a ∧ found'[j]? = some a' ∧ (a = none ↔ a' = none) ∧
      ∀ q i q' i', a = some (q, i) → a' = some (q', i') → zdist (lo + j) noise (seqOf x) (seqOf x) q i = zdist (lo + j) noise (seqOf x) (seqOf x) q' i' := by
  obtain ⟨-, h2⟩ := MotifLengths.found_motif mem hmem argsort hsort size hsize noise x lo k hlo hk hrel hf
  obtain ⟨-, h2'⟩ := MotifLengths.found_motif mem' hmem' argsort' hsort' size' hsize' noise x lo k' hlo hk' hrel' hf'
  obtain ⟨a, a1, a2⟩ := h2 j hj
  obtain ⟨a', a1', a2'⟩ := h2' j hj'
  exact ⟨a, a', a1, a1', MotifLengths.unique a2 a2'⟩

/-! ### Concrete cases -/

/-- Integers with a constant stretch. -/
def motifData : List ℝ := [0, 0, 0, 1, 3, 0, 1, 4]

theorem motifData_int : ∀ v ∈ motifData, ∃ k : ℤ, v = k := by
  intro v hv
  simp only [motifData, List.mem_cons, List.not_mem_nil, or_false] at hv
  have : v = 0 ∨ v = 1 ∨ v = 3 ∨ v = 4 := by tauto
  rcases this with rfl | rfl | rfl | rfl
  · exact ⟨0, by simp⟩
  · exact ⟨1, by simp⟩
  · exact ⟨3, by simp⟩
  · exact ⟨4, by simp⟩

theorem motifData_reliable (k : Nat) (hk : k ≤ 4) : ∀ m, 2 < m → m ≤ 2 + k → NoNearlyFlat motifData m :=
  fun m h1 h2 => noNearlyFlat_int _ motifData_int m (by omega) (by omega)

theorem motifData_found (size : Int) (hsize : 1 ≤ size) : ∃ found, findMotifs ZN.zeroMem Ostinato.sortIdx (motifData.map .fin) (2 : Nat) (((2 : Nat) : Int) + (1 : Nat)) size 0 = .ok found := by
  obtain ⟨found, h, -⟩ := C59_constant ZN.zeroMem ZN.zeroMem_ok Ostinato.sortIdx Ostinato.sortIdx_ok size hsize 0 motifData 2 1 le_rfl (by simp [motifData])
    (.inr ⟨rfl, motifData_reliable 1 (by norm_num)⟩) 0 (by simp [motifData]) (by
      intro j hj
      have : j = 0 ∨ j = 1 ∨ j = 2 := by omega
      rcases this with rfl | rfl | rfl <;> simp [motifData, seqOf])
  exact ⟨found, h⟩

example : ∃ found, findMotifs ZN.zeroMem Ostinato.sortIdx (motifData.map .fin) (2 : Nat) (((2 : Nat) : Int) + (1 : Nat)) 3 0 = .ok found ∧
    ∃ p, matrixProfile (ZN.genOps ZN.zeroMem) (ZN.prepare ZN.zeroMem 0) List.reverse false ((2 + 1 : Nat) : Int) (motifData.map .fin) none (some (((2 + 1) / 2 : Nat) : Int)) = .ok p := by
  obtain ⟨found, h⟩ := motifData_found 3 (by norm_num)
  obtain ⟨p, a, p1, -⟩ := C119_profile ZN.zeroMem ZN.zeroMem ZN.zeroMem_ok ZN.zeroMem_ok Ostinato.sortIdx Ostinato.sortIdx_ok 3 (by norm_num) 0 motifData 2 1 le_rfl
    (by simp [motifData]) (.inr ⟨rfl, motifData_reliable 1 (by norm_num)⟩) found h List.reverse (fun l => List.reverse_perm l) false 1 le_rfl (by simp [motifData])
  exact ⟨found, h, p, p1⟩

/-- One correlation per subsequence is stored, and five. -/
example : ∃ found found', findMotifs ZN.zeroMem Ostinato.sortIdx (motifData.map .fin) (2 : Nat) (((2 : Nat) : Int) + (1 : Nat)) 1 0 = .ok found ∧
    findMotifs ZN.zeroMem Ostinato.sortIdx (motifData.map .fin) (2 : Nat) (((2 : Nat) : Int) + (1 : Nat)) 5 0 = .ok found' ∧ ∃ a a', found[1]? = some a ∧ found'[1]? = some a' ∧ (a = none ↔ a' = none) := by
  obtain ⟨found, h⟩ := motifData_found 1 (by norm_num)
  obtain ⟨found', h'⟩ := motifData_found 5 (by norm_num)
  obtain ⟨a, a', a1, a2, a3, -⟩ := C119_parameters ZN.zeroMem ZN.zeroMem ZN.zeroMem_ok ZN.zeroMem_ok Ostinato.sortIdx Ostinato.sortIdx Ostinato.sortIdx_ok Ostinato.sortIdx_ok 1 5 le_rfl
    (by norm_num) 0 motifData 2 1 1 le_rfl (by simp [motifData]) (by simp [motifData]) (.inr ⟨rfl, motifData_reliable 1 (by norm_num)⟩)
    (.inr ⟨rfl, motifData_reliable 1 (by norm_num)⟩) found found' h h' 1 le_rfl le_rfl
  exact ⟨found, found', h, h', a, a', a1, a2, a3⟩

end Verif
