import Verif.Model.GenOps
import Verif.Props.Euclidean
import Verif.Props.ZNorm

/-!
What it means for a distance generator to serve the distances of its windows, and that the generators of the repository do.
-/

namespace Verif
open Spec

/-- Subsequence `l[i:i+m]`. -/
abbrev win {α : Type} (m : Nat) (l : List α) (i : Nat) : List α := (l.drop i).take m

/-- On calls satisfying `Ok` the generator succeeds, follows the windows, and returns the distances `D` of the subsequences. -/
structure Serves {G K : Type} (ops : GenOps G K) (m N : Nat) (M : Option Nat) (D : List K → List K → Fl K) (Ok : GSt K → GOp K → Prop)
    (Inv : G → GSt K → Prop) : Prop where
  series : ∀ g st v, Inv g st → Ok st (.series v) → ∃ g', ops.appendSeries g (v.map .fin) = .ok g' ∧ Inv g' (st.step N M (.series v))
  query : ∀ g st v, Inv g st → Ok st (.query v) → ∃ g', ops.appendQuery g (v.map .fin) = .ok g' ∧ Inv g' (st.step N M (.query v))
  column : ∀ g st c, Inv g st → Ok st (.column c) → ∃ g', ops.calcColumn g c =
      .ok (g', (List.range (st.q.length + 1 - m)).map fun i => D (win m st.s c) (win m st.q i)) ∧ Inv g' (st.step N M (.column c))
  diag : ∀ g st d, Inv g st → Ok st (.diag d) → ∃ g', ops.calcDiagonal g d =
      .ok (g', (List.range (diagEntries m st.q.length st.s.length d)).map fun k =>
        D (win m st.s (d.toNat + k)) (win m st.q ((-d).toNat + k))) ∧ Inv g' st

theorem seqOf_win {K : Type} [Zero K] (m : Nat) (l : List K) (i k : Nat) (hk : k < m) : seqOf (win m l i) k = seqOf l (i + k) := by
  unfold seqOf win
  rw [List.getD_eq_getElem?_getD, List.getD_eq_getElem?_getD, List.getElem?_take, if_pos hk, List.getElem?_drop]

section
variable {K : Type} [Field K] [LinearOrder K] [IsStrictOrderedRing K]

omit [LinearOrder K] [IsStrictOrderedRing K] in
theorem sqd_win (m : Nat) (s q : List K) (i j : Nat) : sqd m (seqOf (win m s j)) (seqOf (win m q i)) 0 0 = sqd m (seqOf s) (seqOf q) i j := by
  unfold sqd
  refine Finset.sum_congr rfl fun k hk => ?_
  have hk := Finset.mem_range.mp hk
  rw [Nat.zero_add, seqOf_win m s j k hk, seqOf_win m q i k hk]

/-- Euclidean distance of two subsequences. -/
def Eucl.dist (sq : K → K) (m : Nat) (a b : List K) : Fl K := .fin (sq (sqd m (seqOf a) (seqOf b) 0 0))

theorem Eucl.serves (mem : Nat → List (Fl K)) (hmem : ∀ n, (mem n).length = n) (sq : K → K) (m N : Nat) (M : Option Nat) :
    Serves (genOps mem sq) m N M (dist sq m)
      (fun st op => st.Valid m M op ∧ st.Safe op ∧ ∀ c, op = .column c → NoTiny m st.s st.q)
      (fun g st => g.Data m N M st.s st.q ∧ g.Cache (fun a b => (a - b) ^ 2) clamp Eq m N st.s st.q st.last) := by
  have hpos : (0 : K) < eps := by unfold eps; positivity
  have hstart : ∀ s q : List K, NoTiny m s q → Starts (fun v d : K => v = d) m s q := by
    intro s q h i j hi hj
    unfold clamp
    rcases h i j hi hj with h | h
    · rw [h, if_pos hpos]
    · rw [if_neg (not_lt.mpr h)]
  have hP : ∀ v d a b : K, v = d → v - a + b = d - a + b := fun v d a b h => by rw [h]
  refine ⟨?_, ?_, ?_, ?_⟩
  · intro g st v hi hok
    obtain ⟨g', h1, h2, h3⟩ := exec_cache (P := Eq) mem hmem sq hP g m N M st (.series v) hi.1 hi.2
      ⟨hok.1, hok.2.1, fun c h => hstart _ _ (hok.2.2 c h)⟩
    exact ⟨g', h1, h2, h3⟩
  · intro g st v hi hok
    obtain ⟨g', h1, h2, h3⟩ := exec_cache (P := Eq) mem hmem sq hP g m N M st (.query v) hi.1 hi.2
      ⟨hok.1, hok.2.1, fun c h => hstart _ _ (hok.2.2 c h)⟩
    exact ⟨g', h1, h2, h3⟩
  · intro g st c hi hok
    obtain ⟨g', vs, h1, h2, h3, h4, h5⟩ := calcColumn_ok (P := Eq) mem hmem sq hP g m N M st c hi.1 hi.2
      ⟨hok.1, hok.2.1, fun c h => hstart _ _ (hok.2.2 c h)⟩
    refine ⟨g', ?_, h2, h3⟩
    show calcColumn mem sq g c = _
    rw [h1]
    congr 2
    apply List.ext_getElem?
    intro i
    by_cases hi : i + m ≤ st.q.length
    · obtain ⟨v, h6, h7⟩ := h5 i hi
      rw [h6, h7, Fl.sqrtF_fin _ _ (sqd_nonneg _ _ _ _ _), List.getElem?_map, List.getElem?_range (by omega), Option.map_some, dist, sqd_win]
    · rw [List.getElem?_eq_none (by omega), List.getElem?_eq_none (by simp; omega)]
  · intro g st d hi hok
    refine ⟨g, ?_, hi⟩
    show (calcDiagonal sq g d).map _ = _
    rw [calcDiagonal_ok sq g m N M st d hi.1 hok.1]
    simp only [Except.map, dist, sqd_win]

end

theorem mean_win (m : Nat) (s : List ℝ) (j : Nat) : mean m (seqOf (win m s j)) 0 = mean m (seqOf s) j := by
  unfold mean
  congr 1
  refine Finset.sum_congr rfl fun k hk => ?_
  rw [Nat.zero_add, seqOf_win m s j k (Finset.mem_range.mp hk)]

theorem std_win (m : Nat) (s : List ℝ) (j : Nat) : std m (seqOf (win m s j)) 0 = std m (seqOf s) j := by
  unfold std var
  congr 2
  refine Finset.sum_congr rfl fun k hk => ?_
  rw [Nat.zero_add, seqOf_win m s j k (Finset.mem_range.mp hk), mean_win]

theorem zdist_win (m : Nat) (noise : ℝ) (s q : List ℝ) (i j : Nat) :
    zdist m noise (seqOf (win m s j)) (seqOf (win m q i)) 0 0 = zdist m noise (seqOf s) (seqOf q) i j := by
  have h : zsq m (seqOf (win m s j)) (seqOf (win m q i)) 0 0 = zsq m (seqOf s) (seqOf q) i j := by
    unfold zsq
    refine Finset.sum_congr rfl fun k hk => ?_
    have hk := Finset.mem_range.mp hk
    rw [Nat.zero_add, seqOf_win m s j k hk, seqOf_win m q i k hk, mean_win, mean_win, std_win, std_win]
  unfold zdist znoise zflat Flat
  rw [h, std_win, std_win]

/-- z-normalised distance of two subsequences. -/
noncomputable def ZN.dist (noise : ℝ) (m : Nat) (a b : List ℝ) : Fl ℝ := .fin (zdist m noise (seqOf a) (seqOf b) 0 0)

theorem ZN.serves (mem : ZN.Mem) (hmem : mem.Ok) (noise : ℝ) (m N : Nat) (M : Option Nat) :
    Serves (genOps mem) m N M (ZN.dist noise m) (fun st op => st.Valid m M op ∧ st.Safe op)
      (fun z st => z.Base m noise N M st.s st.q ∧ z.CacheOk m N st) := by
  refine ⟨?_, ?_, ?_, ?_⟩
  · intro z st v hi hok
    obtain ⟨z', h1, h2⟩ := exec_cache mem hmem z m noise N M st (.series v) hi.1 hi.2 hok.1 hok.2
    exact ⟨z', h1, exec_base mem z z' m noise N M st _ hi.1 h1, h2⟩
  · intro z st v hi hok
    obtain ⟨z', h1, h2⟩ := exec_cache mem hmem z m noise N M st (.query v) hi.1 hi.2 hok.1 hok.2
    exact ⟨z', h1, exec_base mem z z' m noise N M st _ hi.1 h1, h2⟩
  · intro z st c hi hok
    obtain ⟨z', h1, h2, h3⟩ := z.calcColumn_ok mem hmem m noise N M st c hi.1 hi.2 hok.1 hok.2
    refine ⟨z', ?_, h2, h3⟩
    show calcColumn mem.fl z c = _
    rw [h1, show st.q.length + 1 - m = st.q.length - m + 1 by have := hok.1.2; omega]
    simp only [ZN.dist, zdist_win]
  · intro z st d hi hok
    refine ⟨z, ?_, hi⟩
    show (calcDiagonal z d).map _ = _
    rw [z.calcDiagonal_ok m noise N M st d hi.1 hok.1]
    simp only [Except.map, ZN.dist, zdist_win]

end Verif
