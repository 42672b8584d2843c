import Verif.Props.Valmod

/-!
# C58, C59: the results about VALMOD
-/

namespace Verif
open Spec
namespace Valmod
open ZN
variable {noise : ℝ}

/-! ### C58 -/

/-- **C58** for any two sequences: with `r` the correlation at length `l` clipped to [0, 1], the bound `√(l (1 - r²)) · std_l / std_L` is at most the
z-normalised distance at any length `L ≥ l`. Both subsequences are non-constant at length `l` (the correlation is defined). -/
theorem _root_.Verif.C58_bound (l L : Nat) (hl : 0 < l) (hL : l ≤ L) (s q : Nat → ℝ) (i j : Nat) (hs : std l s j ≠ 0) (hq : std l q i ≠ 0) :
    √(l * (1 - (min (max (corr l s q i j) 0) 1) ^ 2)) * std l s j / std L s j ≤ √(zsq L s q i j) :=
  bound_le l L hl hL s q i j hs hq

/-- **C58.** The lists made by the full calculation at length `l`, for any series, cache size and buffer: every entry of the list of column `c` names `c` and an
existing row; if the entry is used at a longer length `L` (its subsequences still exist and are apart) the value `base / std_s[c]` calculated then is at
most the z-normalised distance of that pair at length `L`, or it is NaN because the row is constant at length `l` (no correlation). -/
theorem _root_.Verif.C58_code (mem : Mem) (hmem : mem.Ok) (argsort : List (Fl ℝ) → List Nat) (hsort : ∀ v, IsArgsort v (argsort v)) (size : Int) (hsize : 1 ≤ size)
    (noise : ℝ) (x : List ℝ) (l b : Nat) (hl : 0 < l) (hx : l ≤ x.length) :
    ∃ z f, prepare mem noise l (x.map .fin) none = .ok z ∧ full mem argsort size b z = .ok f ∧ f.lists.length = x.length + 1 - l ∧
      ∀ c es, f.lists[c]? = some es → ∀ e ∈ es, e.s = c ∧ e.q + l ≤ x.length ∧
        ∀ L, l ≤ L → FarPair x.length L b e.q c → ∃ z' σ, prepare mem noise L (x.map .fin) none = .ok z' ∧ pyGet z'.sStats.std.items (c : Int) = .ok σ ∧
          if std l (seqOf x) e.q = 0 then Fl.div e.base (.fin σ) = .nan
          else ∃ v, Fl.div e.base (.fin σ) = .fin v ∧ v ≤ √(zsq L (seqOf x) (seqOf x) e.q c) := by
  obtain ⟨z, z1, z2⟩ := prepare_gen mem hmem noise l hl x hx
  obtain ⟨f, f1, f2, f3, -⟩ := full_ok mem hmem argsort hsort size hsize x l b hl hx z z2
  refine ⟨z, f, z1, f1, f3, fun c es hc e he => ?_⟩
  obtain ⟨es', c1, c2⟩ := f2 c (by rw [← f3]; exact (List.getElem?_eq_some_iff.mp hc).1)
  rw [hc, Option.some.injEq] at c1
  subst c1
  obtain ⟨i1, i2⟩ := c2.idx e he
  refine ⟨i1, i2, fun L hL ha => ?_⟩
  obtain ⟨z', y1, y2⟩ := prepare_gen mem hmem noise L (by omega) x (by have := ha.1; omega)
  obtain ⟨-, s2, -⟩ := y2.1.sStats.at c ha.2.1
  have hc0 : std l (seqOf x) c ≠ 0 := fun h0 => by
    rw [c2.flat h0] at he
    simp at he
  have hcL := std_ne_zero_of_prefix l L hl hL _ c hc0
  refine ⟨z', _, y1, pyGet_at _ _ _ s2, ?_⟩
  rw [c2.base e he ha.2.2]
  unfold baseOf
  split
  · rfl
  · rename_i hq
    exact ⟨_, by simp [Fl.div, hcL], bound_le l L hl hL _ _ _ _ hc0 hq⟩

/-- **C58** against the distance reported by the generator (which counts deviations up to 1e-6 as 0, and squared distances below 1e-12 as 0): if the subsequences are
not nearly flat the bound is at most the reported distance, or that is 0 and the bound is below 1e-6. -/
theorem _root_.Verif.C58_reported (l L : Nat) (hl : 0 < l) (hL : l ≤ L) (s q : Nat → ℝ) (i j : Nat) (hs : std l s j ≠ 0) (hq : std l q i ≠ 0)
    (h1 : ¬ Flat L s j) (h2 : ¬ Flat L q i) :
    √(l * (1 - (min (max (corr l s q i j) 0) 1) ^ 2)) * std l s j / std L s j ≤ zdist L 0 s q i j ∨
      (zdist L 0 s q i j = 0 ∧ √(l * (1 - (min (max (corr l s q i j) 0) 1) ^ 2)) * std l s j / std L s j < 1 / 10 ^ 6) :=
  bound_zdist l L hl hL s q i j hs hq (fun h => absurd h h1) (fun h => absurd h h2)

/-! ### C59 -/

/-- The hypothesis on nearly flat subsequences holds for integer data and lengths up to a million. -/
theorem noNearlyFlat_int (x : List ℝ) (hx : ∀ v ∈ x, ∃ k : ℤ, v = k) (m : Nat) (hm0 : 0 < m) (hm : m < 10 ^ 6) : NoNearlyFlat x m := by
  intro i hi hf
  by_contra hne
  have hM : (0 : ℝ) < m := by exact_mod_cast hm0
  have hint : ∀ j, ∃ k : ℤ, seqOf x j = k := by
    intro j
    by_cases hj : j < x.length
    · have := seqOf_getElem? x j hj
      exact hx _ (List.mem_of_getElem? this)
    · refine ⟨0, ?_⟩
      simp [seqOf, List.getElem?_eq_none (not_lt.mp hj)]
  choose g hg using hint
  have h1 := sum_centered m hm0 (seqOf x) i
  have h2 := sum_cross m hm0 (seqOf x) (seqOf x) i i
  have h3 := sum_eq_mean m hm0 (seqOf x) i
  have h4 : (m : ℝ) ^ 2 * std m (seqOf x) i ^ 2 =
      ((m * (∑ k ∈ Finset.range m, g (i + k) * g (i + k)) - (∑ k ∈ Finset.range m, g (i + k)) ^ 2 : ℤ) : ℝ) := by
    push_cast
    simp only [← hg]
    rw [h3]
    have : ∑ k ∈ Finset.range m, (seqOf x (i + k) - mean m (seqOf x) i) ^ 2 =
        ∑ k ∈ Finset.range m, (seqOf x (i + k) - mean m (seqOf x) i) * (seqOf x (i + k) - mean m (seqOf x) i) :=
      Finset.sum_congr rfl fun _ _ => by ring
    rw [this, h2] at h1
    linear_combination (-(m : ℝ)) * h1
  have hpos : 0 < (m : ℝ) ^ 2 * std m (seqOf x) i ^ 2 := by positivity
  rw [h4] at hpos
  have hone : (1 : ℝ) ≤ (m : ℝ) ^ 2 * std m (seqOf x) i ^ 2 := by
    rw [h4]
    exact_mod_cast Int.add_one_le_iff.mpr (by exact_mod_cast hpos : (0 : ℤ) < _)
  have hs0 := std_nonneg m (seqOf x) i
  have hmR : (m : ℝ) < 10 ^ 6 := by exact_mod_cast hm
  have hlt : (m : ℝ) * std m (seqOf x) i < 1 := by
    unfold Flat at hf
    calc (m : ℝ) * std m (seqOf x) i ≤ m * (1 / 10 ^ 6) := mul_le_mul_of_nonneg_left hf hM.le
      _ < 1 := by rw [mul_one_div, div_lt_one (by positivity)]; exact hmR
  have hnn : 0 ≤ (m : ℝ) * std m (seqOf x) i := mul_nonneg hM.le hs0
  nlinarith

/-- `np.min`, but infinity for no elements: line 97 of valmod.py repaired. -/
noncomputable def guardedMin (L : List (Fl ℝ)) : Except PyErr (Fl ℝ) := if L = [] then .ok .pinf else npMin L

theorem minLike_npMin : MinLike npMin := ⟨fun _ _ => rfl, Or.inl ⟨_, npMin_nil⟩⟩

theorem minLike_guarded : MinLike guardedMin := ⟨fun L h => if_neg h, Or.inr (if_pos rfl)⟩

theorem reliable {x : List ℝ} {lo k : Nat} {size : Int} (h : (x.length : Int) + 1 - lo ≤ size ∨ (noise = 0 ∧ ∀ m, lo < m → m ≤ lo + k → NoNearlyFlat x m)) :
    ∀ m, lo < m → m ≤ lo + k → Reliable noise x lo size m :=
  fun m h1 h2 => h.imp_right fun h => ⟨h.1, h.2 m h1 h2⟩

/-- **C59 (part).** All series, all lengths `2 ≤ lo ≤ lo + k ≤ n`, all cache sizes ≥ 1; either the cache has room for every subsequence of the first length (any noise
elimination), or there is no noise elimination and no nearly flat (but not constant) subsequence. If the call returns, there is one answer per length, each the pair more
than `⌈lo/2⌉` apart with the smallest z-normalised distance (`none` if nothing is that far apart). The only other outcome is a `ValueError`. Missing: that it always
returns, which is false, see `C59_pruned_fails`; noise elimination or nearly flat subsequences with a smaller cache, where the answer can be wrong, see `C59_noise_wrong`
and `C59_nearly_flat_wrong`; cache size 0 see `C59_no_cache_fails`. -/
theorem _root_.Verif.C59_partial (mem : Mem) (hmem : mem.Ok) (argsort : List (Fl ℝ) → List Nat) (hsort : ∀ v, IsArgsort v (argsort v)) (size : Int) (hsize : 1 ≤ size)
    (noise : ℝ) (x : List ℝ) (lo k : Nat) (hlo : 2 ≤ lo) (hk : lo + k ≤ x.length) (hrel : (x.length : Int) + 1 - lo ≤ size ∨ (noise = 0 ∧ ∀ m, lo < m → m ≤ lo + k → NoNearlyFlat x m)) :
    (∃ found, findMotifs mem argsort (x.map .fin) lo ((lo : Int) + k) size noise = .ok found ∧ found.length = k + 1 ∧
      ∀ j, j ≤ k → ∃ a, found[j]? = some a ∧ IsMotif noise x (lo + j) ((lo + 1) / 2) a) ∨
    findMotifs mem argsort (x.map .fin) lo ((lo : Int) + k) size noise = .error .valueError := by
  rcases findMotifs_ok mem hmem argsort hsort size hsize npMin minLike_npMin x lo k hlo hk (reliable hrel) with h | ⟨e, m, h1, h2, -⟩
  · exact Or.inl h
  · rw [npMin_nil, Except.error.injEq] at h2
    rw [← h2] at h1
    exact Or.inr h1

/-- **C59** where the unguarded minimum cannot bite: some subsequence of the largest length is constant. -/
theorem _root_.Verif.C59_constant (mem : Mem) (hmem : mem.Ok) (argsort : List (Fl ℝ) → List Nat) (hsort : ∀ v, IsArgsort v (argsort v)) (size : Int) (hsize : 1 ≤ size)
    (noise : ℝ) (x : List ℝ) (lo k : Nat) (hlo : 2 ≤ lo) (hk : lo + k ≤ x.length) (hrel : (x.length : Int) + 1 - lo ≤ size ∨ (noise = 0 ∧ ∀ m, lo < m → m ≤ lo + k → NoNearlyFlat x m))
    (c : Nat) (hc : c + (lo + k) ≤ x.length) (hconst : ∀ j, j < lo + k → seqOf x (c + j) = seqOf x c) :
    ∃ found, findMotifs mem argsort (x.map .fin) lo ((lo : Int) + k) size noise = .ok found ∧ found.length = k + 1 ∧
      ∀ j, j ≤ k → ∃ a, found[j]? = some a ∧ IsMotif noise x (lo + j) ((lo + 1) / 2) a := by
  rcases findMotifs_ok mem hmem argsort hsort size hsize npMin minLike_npMin x lo k hlo hk (reliable hrel) with h | ⟨e, m, -, -, h1, h2⟩
  · exact h
  · exfalso
    by_cases hm : m = 0
    · subst hm
      exact h2 c (by omega) (by simp [std, var])
    · refine h2 c (by omega) ?_
      have hm0 : (m : ℝ) ≠ 0 := by exact_mod_cast hm
      have hmean : mean m (seqOf x) c = seqOf x c := by
        unfold mean
        rw [Finset.sum_congr rfl fun j hj => hconst j (by have := Finset.mem_range.mp hj; omega)]
        simp
        field_simp
      unfold std var
      rw [hmean, Finset.sum_eq_zero fun j hj => by rw [hconst j (by have := Finset.mem_range.mp hj; omega)]; ring]
      simp

/-- **C59** for the first length, without conditions on flatness: asked for one length only, the call returns the best pair. -/
theorem _root_.Verif.C59_single_length (mem : Mem) (hmem : mem.Ok) (argsort : List (Fl ℝ) → List Nat) (hsort : ∀ v, IsArgsort v (argsort v)) (size : Int)
    (hsize : 1 ≤ size) (noise : ℝ) (x : List ℝ) (lo : Nat) (hlo : 2 ≤ lo) (hk : lo ≤ x.length) :
    ∃ a, findMotifs mem argsort (x.map .fin) lo lo size noise = .ok [a] ∧ IsMotif noise x lo ((lo + 1) / 2) a := by
  obtain ⟨z, z1, z2⟩ := prepare_gen mem hmem noise lo (by omega) x (by omega)
  obtain ⟨f, f1, f2, -, f3⟩ := full_ok mem hmem argsort hsort size hsize x lo ((lo + 1) / 2) (by omega) (by omega) z z2
  have hb : ((lo : Int) + 1) / 2 = (((lo + 1) / 2 : Nat) : Int) := by omega
  refine ⟨f.best.idx, ?_, f3.motif⟩
  unfold findMotifs findMotifsWith
  rw [if_neg (by omega), if_neg (by omega), if_neg (by omega), z1]
  simp only [bind, Except.bind]
  rw [hb, f1, pyRange_empty _ _ le_rfl]
  rfl

/-- **C59** for the code with line 97 repaired (no invalid columns: the candidate is accepted): the call always returns and every answer is right. -/
theorem _root_.Verif.C59_repaired (mem : Mem) (hmem : mem.Ok) (argsort : List (Fl ℝ) → List Nat) (hsort : ∀ v, IsArgsort v (argsort v)) (size : Int) (hsize : 1 ≤ size)
    (noise : ℝ) (x : List ℝ) (lo k : Nat) (hlo : 2 ≤ lo) (hk : lo + k ≤ x.length) (hrel : (x.length : Int) + 1 - lo ≤ size ∨ (noise = 0 ∧ ∀ m, lo < m → m ≤ lo + k → NoNearlyFlat x m)) :
    ∃ found, findMotifsWith guardedMin mem argsort (x.map .fin) lo ((lo : Int) + k) size noise = .ok found ∧ found.length = k + 1 ∧
      ∀ j, j ≤ k → ∃ a, found[j]? = some a ∧ IsMotif noise x (lo + j) ((lo + 1) / 2) a := by
  rcases findMotifs_ok mem hmem argsort hsort size hsize guardedMin minLike_guarded x lo k hlo hk (reliable hrel) with h | ⟨e, m, -, h2, -⟩
  · exact h
  · rw [show guardedMin [] = .ok .pinf from if_pos rfl] at h2
    simp at h2

/-! ### C59: where the code fails -/

theorem zdist_same (m : Nat) (s : Nat → ℝ) (i j : Nat) (h : ∀ k, k < m → s (i + k) = s (j + k)) : zdist m 0 s s i j = 0 := by
  have hm : mean m s i = mean m s j := by
    unfold mean
    rw [Finset.sum_congr rfl fun k hk => h k (Finset.mem_range.mp hk)]
  have hs : std m s i = std m s j := by
    unfold std var
    rw [hm, Finset.sum_congr rfl fun k hk => by rw [h k (Finset.mem_range.mp hk)]]
  by_cases hf : Flat m s j
  · exact zdist_flat m 0 s s i j (by unfold Flat at hf ⊢; rw [hs]; exact hf) hf
  · rw [zdist_regular m s s i j (by unfold Flat at hf ⊢; rw [hs]; exact hf) hf]
    have : zsq m s s i j = 0 := by
      unfold zsq
      exact Finset.sum_eq_zero fun k hk => by rw [h k (Finset.mem_range.mp hk), hm, hs]; ring
    rw [this]
    simp

/-- If every column has, among its cached entries, an exact match and a pair with a positive bound, then all columns are settled by their entries and `np.min` is asked
for the minimum of no bounds. -/
theorem lengthStep_fails (mem : Mem) (hmem : mem.Ok) (argsort : List (Fl ℝ) → List Nat) (size : Int)
    (x : List ℝ) (l b m : Nat) (hl : 0 < l) (hlm : l < m) (hm : m ≤ x.length)
    (hflat : NoNearlyFlat x m) (lists0 : List (List Entry)) (h0 : ListsAt x l b size (m - 1) (x.length + 1 - m) lists0) (hbig : (x.length : Int) + 1 - l ≤ size)
    (found : List (Option (Nat × Nat))) (hgood : ∀ i, i + m ≤ x.length → std l (seqOf x) i ≠ 0 ∧
      (∃ q, FarPair x.length m b q i ∧ D 0 x m q i = 0) ∧ ∃ q, FarPair x.length m b q i ∧ 0 < boundBase l (seqOf x) (seqOf x) q i) :
    lengthStep mem argsort npMin 0 size (b : Int) (x.map .fin) (lists0, found) (m : Int) = .error .valueError := by
  obtain ⟨z, z1, z2⟩ := prepare_gen mem hmem 0 m (by omega) x hm
  obtain ⟨p, p1, p2⟩ := pass_ok x l b m size lists0 z z2.1 hl hlm hm (.inr ⟨rfl, hflat⟩) h0
  have hinv : p.invalid = [] := by
    rw [List.eq_nil_iff_forall_not_mem]
    intro c hc
    obtain ⟨i1, ⟨es, sc, s1, s2, s3⟩, -⟩ := p2.inv c hc
    obtain ⟨es', t1, t2⟩ := h0 c.1 i1
    rw [s1, Option.some.injEq] at t1
    subst t1
    obtain ⟨g1, ⟨q, q1, q2⟩, ⟨r, r1, r2⟩⟩ := hgood c.1 (by omega)
    have hap : ∀ q, FarPair x.length m b q c.1 → FarPair x.length l b q c.1 := fun q h => ⟨by have := h.1; omega, by have := h.2.1; omega, h.2.2⟩
    have hstd : ∀ q, FarPair x.length m b q c.1 → std l (seqOf x) q ≠ 0 := fun q h => (hgood q h.1).1
    obtain ⟨e, e1, rfl⟩ := t2.all (.inr hbig) g1 q (hap q q1) (hstd q q1)
    obtain ⟨e', e2, rfl⟩ := t2.all (.inr hbig) g1 r (hap r r1) (hstd r r1)
    have d1 := s2.low e e1 q1
    rw [q2] at d1
    have hb : e'.base = .fin (boundBase l (seqOf x) (seqOf x) e'.q c.1) := by
      rw [t2.base e' e2 r1.2.2]
      exact if_neg (hstd _ r1)
    have d2 := s2.lbLow e' e2 r1 _ hb
    have hpos : 0 < boundBase l (seqOf x) (seqOf x) e'.q c.1 / std m (seqOf x) c.1 :=
      div_pos r2 (lt_of_le_of_ne (std_nonneg _ _ _) (Ne.symm (std_ne_zero_of_prefix l m hl hlm.le _ _ g1)))
    have d3 : sc.dist < sc.lb := lt_of_le_of_lt d1 (lt_of_lt_of_le ((Fl.fin_lt_fin _ _).mpr hpos) d2)
    apply s3
    rw [Fl.ltF_iff]
    refine ⟨d3, ?_⟩
    rcases s2.lbHit with h1 | ⟨e', -, -, v, -, h1⟩ <;> rw [h1] <;> simp
  have hidx : p.best.idx ≠ none := by
    rcases p2.cover 0 (by omega) with ⟨-, c1, -⟩ | ⟨w, c1⟩
    · rcases p2.hit with h1 | ⟨q, i, -, -, h1⟩
      · exact absurd h1.1 c1
      · rw [h1]; simp
    · rw [hinv] at c1
      simp at c1
  have hacc : p.accept npMin = .error .valueError := by
    unfold Pass.accept
    rw [hinv]
    cases h : p.best.idx with
    | none => exact absurd h hidx
    | some pr => rfl
  unfold lengthStep
  rw [z1]
  simp only [bind, Except.bind, List.length_map]
  rw [p1]
  simp only
  rw [hacc]

/-- The series 0, 1, 0, 1, 0, 1, 0, 1. -/
def _root_.Verif.exAlt : List ℝ := [0, 1, 0, 1, 0, 1, 0, 1]

theorem exAlt_int : ∀ v ∈ exAlt, ∃ k : ℤ, v = k := by
  intro v hv
  simp only [exAlt, List.mem_cons, List.not_mem_nil, or_false] at hv
  have : v = 0 ∨ v = 1 := by tauto
  rcases this with rfl | rfl
  · exact ⟨0, by simp⟩
  · exact ⟨1, by simp⟩

theorem exAlt_mean (i : Nat) (hi : i + 2 ≤ 8) : mean 2 (seqOf exAlt) i = 1 / 2 := by
  have hle : i ≤ 6 := by omega
  interval_cases i <;> norm_num [mean, seqOf, exAlt, Finset.sum_range_succ]

theorem exAlt_std (i : Nat) (hi : i + 2 ≤ 8) : std 2 (seqOf exAlt) i = 1 / 2 := by
  have : var 2 (seqOf exAlt) i = (1 / 2) ^ 2 := by
    unfold var
    rw [exAlt_mean i hi]
    have hle : i ≤ 6 := by omega
    interval_cases i <;> norm_num [seqOf, exAlt, Finset.sum_range_succ]
  rw [std, this, Real.sqrt_sq (by norm_num)]

theorem exAlt_bound (q i : Nat) (hq : q + 2 ≤ 8) (hi : i + 2 ≤ 8) (hqi : q + 3 = i ∨ i + 3 = q) : 0 < boundBase 2 (seqOf exAlt) (seqOf exAlt) q i := by
  have hc : corr 2 (seqOf exAlt) (seqOf exAlt) q i = -1 := by
    unfold corr
    rw [exAlt_mean q hq, exAlt_mean i hi, exAlt_std q hq, exAlt_std i hi]
    rcases hqi with rfl | rfl
    · have hle : q ≤ 3 := by omega
      interval_cases q <;> norm_num [seqOf, exAlt, Finset.sum_range_succ]
    · have hle : i ≤ 3 := by omega
      interval_cases i <;> norm_num [seqOf, exAlt, Finset.sum_range_succ]
  unfold boundBase
  rw [hc, exAlt_std i hi]
  norm_num

theorem exAlt_same (q i : Nat) (hq : q + 3 ≤ 8) (hi : i + 3 ≤ 8) (hqi : q + 2 = i ∨ i + 2 = q) : D 0 exAlt 3 q i = 0 := by
  refine zdist_same 3 _ q i fun k hk => ?_
  rcases hqi with rfl | rfl
  · have hle : q ≤ 3 := by omega
    interval_cases q <;> interval_cases k <;> norm_num [seqOf, exAlt]
  · have hle : i ≤ 3 := by omega
    interval_cases i <;> interval_cases k <;> norm_num [seqOf, exAlt]

/-- **C59 fails** on the series 0, 1, 0, 1, 0, 1, 0, 1 with lengths 2 to 3 and a cache of 10 entries (any order of equal elements in `argsort`, any memory): `ValueError`,
`np.min` of the empty list of invalid columns at line 97. -/
theorem _root_.Verif.C59_pruned_fails (mem : Mem) (hmem : mem.Ok) (argsort : List (Fl ℝ) → List Nat) (hsort : ∀ v, IsArgsort v (argsort v)) :
    findMotifs mem argsort (exAlt.map .fin) 2 3 10 0 = .error .valueError := by
  have hlen : exAlt.length = 8 := rfl
  obtain ⟨z, z1, z2⟩ := prepare_gen mem hmem 0 2 (by omega) exAlt (by rw [hlen]; omega)
  obtain ⟨f, f1, f2, -, f3⟩ := full_ok mem hmem argsort hsort 10 (by omega) exAlt 2 1 (by omega) (by rw [hlen]; omega) z z2
  have h := lengthStep_fails mem hmem argsort 10 exAlt 2 1 3 (by omega) (by omega) (by rw [hlen]; omega) (noNearlyFlat_int exAlt exAlt_int 3 (by omega) (by norm_num))
    f.lists (fun i hi => f2 i (by omega)) (by rw [hlen]; norm_num) [f.best.idx] (by
      intro i hi
      rw [hlen] at hi ⊢
      refine ⟨by rw [exAlt_std i (by omega)]; norm_num, ?_, ?_⟩
      · by_cases h : i + 5 ≤ 8
        · exact ⟨i + 2, ⟨by omega, by omega, by omega⟩, exAlt_same _ _ (by omega) (by omega) (by omega)⟩
        · exact ⟨i - 2, ⟨by omega, by omega, by omega⟩, exAlt_same _ _ (by omega) (by omega) (by omega)⟩
      · by_cases h : i + 6 ≤ 8
        · exact ⟨i + 3, ⟨by omega, by omega, by omega⟩, exAlt_bound _ _ (by omega) (by omega) (by omega)⟩
        · exact ⟨i - 3, ⟨by omega, by omega, by omega⟩, exAlt_bound _ _ (by omega) (by omega) (by omega)⟩)
  have z1' : prepare mem 0 2 (exAlt.map .fin) none = .ok z := z1
  have f1' : full mem argsort 10 1 z = .ok f := f1
  unfold findMotifs findMotifsWith
  rw [if_neg (by omega), if_neg (by omega), if_neg (by omega), z1']
  simp only [bind, Except.bind]
  rw [show ((2 : Int) + 1) / 2 = 1 by norm_num, f1']
  simp only
  rw [show pyRange (2 + 1) (3 + 1) = [3] from rfl]
  have h' : lengthStep mem argsort npMin 0 10 1 (exAlt.map .fin) (f.lists, [f.best.idx]) 3 = .error .valueError := h
  rw [List.foldlM_cons, h']
  rfl

/-- **C59 fails** without a cache: `cache_size = 0` passes the guard, and then any series whose first subsequence is not constant gives an `IndexError`
(`closest_indices[-1]`, line 181). -/
theorem _root_.Verif.C59_no_cache_fails (mem : Mem) (hmem : mem.Ok) (argsort : List (Fl ℝ) → List Nat) (x : List ℝ) (lo k : Nat) (hlo : 2 ≤ lo) (hk : lo ≤ x.length)
    (hstd : std lo (seqOf x) 0 ≠ 0) (noise : ℝ) : findMotifs mem argsort (x.map .fin) lo ((lo : Int) + k) 0 noise = .error .indexError := by
  obtain ⟨z, z1, z2⟩ := prepare_gen mem hmem noise lo (by omega) x (by omega)
  obtain ⟨z', c1, c2, c3, c4⟩ := column_gen mem hmem z lo x z2 0 (by omega)
  have hb : ((lo : Int) + 1) / 2 = (((lo + 1) / 2 : Nat) : Int) := by omega
  obtain ⟨best', b1, -, -⟩ := (BestOk.init noise x lo ((lo + 1) / 2)).improve 0 (by omega)
  obtain ⟨s1, s2, -⟩ := c2.1.sStats.at 0 (by omega)
  have hl : lbList argsort 0 (((lo + 1) / 2 : Nat) : Int) z' 0 = .error .indexError := by
    unfold lbList
    rw [pyGet_at _ _ _ s1, pyGet_at _ _ _ s2]
    simp only [bind, Except.bind]
    rw [if_neg hstd]
    unfold boundList
    rw [bases_ok x lo (by omega) z' c2.1 0 hstd c3 c4]
    simp only [bind, Except.bind]
    unfold closest
    have : ∀ l : List Nat, pyTo l (0 : Int) = [] := fun l => by
      have := pyTo_nat l 0
      simpa using this
    simp only [this]
    rfl
  have hf : full mem argsort 0 (((lo + 1) / 2 : Nat) : Int) z = .error .indexError := by
    unfold full
    rw [z2.1.sStats.len.1, show x.length + 1 - lo = (x.length - lo) + 1 by omega, List.range_succ_eq_map, List.foldlM_cons]
    unfold Full.column
    rw [c1]
    simp only [bind, Except.bind]
    rw [b1]
    simp only
    rw [hl]
  unfold findMotifs findMotifsWith
  rw [if_neg (by omega), if_neg (by omega), if_neg (by omega), z1]
  simp only [bind, Except.bind]
  rw [hb, hf]

/-- Invalid arguments are rejected. -/
theorem _root_.Verif.C59_rejects (mem : Mem) (argsort : List (Fl ℝ) → List Nat) (x : List (Fl ℝ)) (lo hi size : Int) (noise : ℝ) (h : lo < 2 ∨ hi < lo ∨ size < 0) :
    findMotifs mem argsort x lo hi size noise = .error .runtimeError := by
  unfold findMotifs findMotifsWith
  by_cases h1 : lo < 2
  · rw [if_pos h1]
  · rw [if_neg h1]
    by_cases h2 : hi < lo
    · rw [if_pos h2]
    · rw [if_neg h2, if_pos (by omega)]

/-! ### Concrete cases -/

/-- C58 on 0, 1, 0, 1, …: subsequences 3 apart, lengths 2 and 3 -/
example : √((2 : ℕ) * (1 - (min (max (corr 2 (seqOf exAlt) (seqOf exAlt) 3 0) 0) 1) ^ 2)) * std 2 (seqOf exAlt) 0 / std 3 (seqOf exAlt) 0 ≤
    √(zsq 3 (seqOf exAlt) (seqOf exAlt) 3 0) :=
  C58_bound 2 3 (by norm_num) (by norm_num) _ _ 3 0 (by rw [exAlt_std 0 (by omega)]; norm_num) (by rw [exAlt_std 3 (by omega)]; norm_num)

example : ∃ z f, prepare ZN.zeroMem 0 2 (exAlt.map .fin) none = .ok z ∧ full ZN.zeroMem Ostinato.sortIdx 3 1 z = .ok f ∧ f.lists.length = 7 := by
  obtain ⟨z, f, h1, h2, h3, -⟩ := C58_code ZN.zeroMem ZN.zeroMem_ok Ostinato.sortIdx Ostinato.sortIdx_ok 3 (by norm_num) 0 exAlt 2 1 (by norm_num) (by simp [exAlt])
  exact ⟨z, f, h1, h2, h3⟩

/-- C59 on integer data with a constant stretch: lengths 2 and 3 of 0, 0, 0, 1, 3, 0, 1, 4 -/
example : ∃ found, findMotifs ZN.zeroMem Ostinato.sortIdx (([0, 0, 0, 1, 3, 0, 1, 4] : List ℝ).map .fin) 2 3 3 0 = .ok found ∧ found.length = 2 ∧
    ∀ j, j ≤ 1 → ∃ a, found[j]? = some a ∧ IsMotif 0 [0, 0, 0, 1, 3, 0, 1, 4] (2 + j) 1 a := by
  have hint : ∀ v ∈ ([0, 0, 0, 1, 3, 0, 1, 4] : List ℝ), ∃ k : ℤ, v = k := by
    intro v hv
    simp only [List.mem_cons, List.not_mem_nil, or_false] at hv
    have : v = 0 ∨ v = 1 ∨ v = 3 ∨ v = 4 := by tauto
    rcases this with rfl | rfl | rfl | rfl
    · exact ⟨0, by simp⟩
    · exact ⟨1, by simp⟩
    · exact ⟨3, by simp⟩
    · exact ⟨4, by simp⟩
  exact C59_constant ZN.zeroMem ZN.zeroMem_ok Ostinato.sortIdx Ostinato.sortIdx_ok 3 (by norm_num) 0 _ 2 1 le_rfl (by simp)
    (.inr ⟨rfl, fun m h1 h2 => noNearlyFlat_int _ hint m (by omega) (by omega)⟩) 0 (by simp) (fun j hj => by interval_cases j <;> simp [seqOf])

/-- C59_repaired on the series where the code fails: the pair of length 3 exists and has distance 0. -/
example : ∃ found q i, findMotifsWith guardedMin ZN.zeroMem Ostinato.sortIdx (exAlt.map .fin) 2 3 10 0 = .ok found ∧ found[1]? = some (some (q, i)) ∧
    D 0 exAlt 3 q i = 0 := by
  obtain ⟨found, h1, -, h2⟩ := C59_repaired ZN.zeroMem ZN.zeroMem_ok Ostinato.sortIdx Ostinato.sortIdx_ok 10 (by norm_num) 0 exAlt 2 1 le_rfl (by simp [exAlt])
    (.inr ⟨rfl, fun m h1 h2 => noNearlyFlat_int _ exAlt_int m (by omega) (by omega)⟩)
  obtain ⟨a, a1, a2⟩ := h2 1 le_rfl
  have hap : FarPair exAlt.length 3 1 2 0 := ⟨by simp [exAlt], by simp [exAlt], by omega⟩
  cases a with
  | none => exact absurd hap (a2 2 0)
  | some pr =>
    obtain ⟨q, i⟩ := pr
    refine ⟨found, q, i, h1, a1, le_antisymm ?_ (zdist_nonneg _ _ _ _ _ _)⟩
    have := a2.2 2 0 hap
    rwa [show zdist (2 + 1) 0 (seqOf exAlt) (seqOf exAlt) 2 0 = 0 from exAlt_same 2 0 (by omega) (by omega) (by omega)] at this

end Valmod

example := C59_single_length ZN.zeroMem ZN.zeroMem_ok Ostinato.sortIdx Ostinato.sortIdx_ok 2 (by norm_num) (1 / 2) [0, 0, 0, 1, 3, 0, 1, 4] 3 (by norm_num) (by simp)

example := C59_rejects ZN.zeroMem Ostinato.sortIdx [.fin 1, .nan] 3 2 5 0 (.inr (.inl (by norm_num)))

example := C59_no_cache_fails ZN.zeroMem ZN.zeroMem_ok Ostinato.sortIdx exAlt 2 1 le_rfl (by simp [exAlt]) (by rw [Valmod.exAlt_std 0 (by omega)]; norm_num) 0

end Verif
