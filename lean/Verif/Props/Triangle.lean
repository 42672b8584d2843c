import Verif.Props.Consensus
import Verif.Props.EndToEnd

/-!
# C118: the triangle inequality
-/

namespace Verif
open Spec
namespace Triangle

theorem euclidean (m : Nat) (x y z : Nat → ℝ) (i j k : Nat) : √(sqd m x z k i) ≤ √(sqd m x y j i) + √(sqd m y z k j) := by
  have h := Consensus.minkowski m (fun t => x (i + t) - y (j + t)) (fun t => y (j + t) - z (k + t))
  simp only [sub_add_sub_cancel] at h
  exact h

end Triangle

/-- **C118, Euclidean distances.** Three `Euclidean` generators, each after any accepted calls: one compares series `x` with query `y`, one series `y` with query `z`, one series `x`
with query `z`. The distances that `calc_diagonal` gives for subsequences `i`, `j`, `k` of `x`, `y`, `z` satisfy the triangle inequality. -/
theorem C118_euclidean (mem1 mem2 mem3 : Nat → List (Fl ℝ)) (hmem1 : ∀ n, (mem1 n).length = n) (hmem2 : ∀ n, (mem2 n).length = n) (hmem3 : ∀ n, (mem3 n).length = n) (m : Nat)
    (hm : 0 < m) (N1 N2 N3 : Nat) (M1 M2 M3 : Option Nat) (a1 g1 a2 g2 a3 g3 : ColCache ℝ) (st1 st2 st3 : GSt ℝ) (h1 : Eucl.Fresh mem1 m a1 N1 M1 st1)
    (h2 : Eucl.Fresh mem2 m a2 N2 M2 st2) (h3 : Eucl.Fresh mem3 m a3 N3 M3 st3) (ops1 ops2 ops3 : List (GOp ℝ)) (r1 : Eucl.run mem1 Real.sqrt a1 ops1 = .ok g1)
    (r2 : Eucl.run mem2 Real.sqrt a2 ops2 = .ok g2) (r3 : Eucl.run mem3 Real.sqrt a3 ops3 = .ok g3) (x y z : List ℝ)
    (hx : (st1.run N1 M1 ops1).s = x ∧ (st3.run N3 M3 ops3).s = x) (hy : (st1.run N1 M1 ops1).q = y ∧ (st2.run N2 M2 ops2).s = y)
    (hz : (st2.run N2 M2 ops2).q = z ∧ (st3.run N3 M3 ops3).q = z) (i j k : Nat) (hi : i + m ≤ x.length) (hj : j + m ≤ y.length) (hk : k + m ≤ z.length) :
    ∃ (d1 d2 d3 : List (Fl ℝ)) (v1 v2 v3 : ℝ), Eucl.calcDiagonal Real.sqrt g1 ((i : Int) - j) = .ok d1 ∧ Eucl.calcDiagonal Real.sqrt g2 ((j : Int) - k) = .ok d2 ∧
      Eucl.calcDiagonal Real.sqrt g3 ((i : Int) - k) = .ok d3 ∧ d1[min j i]? = some (.fin v1) ∧ d2[min k j]? = some (.fin v2) ∧ d3[min k i]? = some (.fin v3) ∧ v3 ≤ v1 + v2 := by
  have get : ∀ (mem : Nat → List (Fl ℝ)) (hmem : ∀ n, (mem n).length = n) (N : Nat) (M : Option Nat) (a g : ColCache ℝ) (st : GSt ℝ) (h : Eucl.Fresh mem m a N M st)
      (ops : List (GOp ℝ)) (hr : Eucl.run mem Real.sqrt a ops = .ok g) (i j : Nat) (hi : i + m ≤ (st.run N M ops).s.length) (hj : j + m ≤ (st.run N M ops).q.length),
      ∃ d, Eucl.calcDiagonal Real.sqrt g ((i : Int) - j) = .ok d ∧ d[min j i]? = some (.fin (√(sqd m (seqOf (st.run N M ops).s) (seqOf (st.run N M ops).q) j i))) := by
    intro mem hmem N M a g st h ops hr i j hi hj
    obtain ⟨s, q, rfl, rfl, hd⟩ := C27_diagonal mem hmem Real.sqrt m N M a g st hm h ops hr ((i : Int) - j) ⟨by omega, by omega, by omega, by omega⟩
    refine ⟨_, hd, ?_⟩
    obtain ⟨e1, e2, e3⟩ := diag_cell m _ _ j i hj hi
    rw [List.getElem?_map, List.getElem?_range e1, Option.map_some, e2, e3]
  obtain ⟨rfl, hx⟩ := hx
  obtain ⟨rfl, hy⟩ := hy
  obtain ⟨rfl, hz⟩ := hz
  obtain ⟨d1, e1, f1⟩ := get mem1 hmem1 N1 M1 a1 g1 st1 h1 ops1 r1 i j hi hj
  obtain ⟨d2, e2, f2⟩ := get mem2 hmem2 N2 M2 a2 g2 st2 h2 ops2 r2 j k (by rw [hy]; exact hj) hk
  obtain ⟨d3, e3, f3⟩ := get mem3 hmem3 N3 M3 a3 g3 st3 h3 ops3 r3 i k (by rw [hx]; exact hi) (by rw [hz]; exact hk)
  rw [hy] at f2
  rw [hx, hz] at f3
  exact ⟨d1, d2, d3, _, _, _, e1, e2, e3, f1, f2, f3, Triangle.euclidean m _ _ _ i j k⟩

/-- **C118, z-normalised distances.** The same for `ZNormEuclidean` generators without noise elimination, up to 2 · 10⁻⁶, because distances below 10⁻⁶ are reported as 0. -/
theorem C118_znorm (mem1 mem2 mem3 : ZN.Mem) (hmem1 : mem1.Ok) (hmem2 : mem2.Ok) (hmem3 : mem3.Ok) (m : Nat) (hm : 0 < m) (N1 N2 N3 : Nat) (M1 M2 M3 : Option Nat)
    (a1 g1 a2 g2 a3 g3 : ZN) (st1 st2 st3 : GSt ℝ) (h1 : ZN.Fresh mem1 m 0 a1 N1 M1 st1) (h2 : ZN.Fresh mem2 m 0 a2 N2 M2 st2) (h3 : ZN.Fresh mem3 m 0 a3 N3 M3 st3)
    (ops1 ops2 ops3 : List (GOp ℝ)) (r1 : ZN.run mem1 a1 ops1 = .ok g1) (r2 : ZN.run mem2 a2 ops2 = .ok g2) (r3 : ZN.run mem3 a3 ops3 = .ok g3) (x y z : List ℝ)
    (hx : (st1.run N1 M1 ops1).s = x ∧ (st3.run N3 M3 ops3).s = x) (hy : (st1.run N1 M1 ops1).q = y ∧ (st2.run N2 M2 ops2).s = y)
    (hz : (st2.run N2 M2 ops2).q = z ∧ (st3.run N3 M3 ops3).q = z) (i j k : Nat) (hi : i + m ≤ x.length) (hj : j + m ≤ y.length) (hk : k + m ≤ z.length) :
    ∃ (d1 d2 d3 : List (Fl ℝ)) (v1 v2 v3 : ℝ), ZN.calcDiagonal g1 ((i : Int) - j) = .ok d1 ∧ ZN.calcDiagonal g2 ((j : Int) - k) = .ok d2 ∧
      ZN.calcDiagonal g3 ((i : Int) - k) = .ok d3 ∧ d1[min j i]? = some (.fin v1) ∧ d2[min k j]? = some (.fin v2) ∧ d3[min k i]? = some (.fin v3) ∧ v3 ≤ v1 + v2 + 2 / 10 ^ 6 := by
  have get : ∀ (mem : ZN.Mem) (hmem : mem.Ok) (N : Nat) (M : Option Nat) (a g : ZN) (st : GSt ℝ) (h : ZN.Fresh mem m 0 a N M st)
      (ops : List (GOp ℝ)) (hr : ZN.run mem a ops = .ok g) (i j : Nat) (hi : i + m ≤ (st.run N M ops).s.length) (hj : j + m ≤ (st.run N M ops).q.length),
      ∃ d, ZN.calcDiagonal g ((i : Int) - j) = .ok d ∧ d[min j i]? = some (.fin (zdist m 0 (seqOf (st.run N M ops).s) (seqOf (st.run N M ops).q) j i)) := by
    intro mem hmem N M a g st h ops hr i j hi hj
    have hb := ZN.run_base mem a g m 0 N M st ops (h.base hmem hm).1 hr
    refine ⟨_, g.calcDiagonal_ok m 0 N M _ ((i : Int) - j) hb ⟨by omega, by omega, by omega, by omega⟩, ?_⟩
    obtain ⟨e1, e2, e3⟩ := diag_cell m _ _ j i hj hi
    rw [List.getElem?_map, List.getElem?_range e1, Option.map_some, e2, e3]
  obtain ⟨rfl, hx⟩ := hx
  obtain ⟨rfl, hy⟩ := hy
  obtain ⟨rfl, hz⟩ := hz
  obtain ⟨d1, e1, f1⟩ := get mem1 hmem1 N1 M1 a1 g1 st1 h1 ops1 r1 i j hi hj
  obtain ⟨d2, e2, f2⟩ := get mem2 hmem2 N2 M2 a2 g2 st2 h2 ops2 r2 j k (by rw [hy]; exact hj) hk
  obtain ⟨d3, e3, f3⟩ := get mem3 hmem3 N3 M3 a3 g3 st3 h3 ops3 r3 i k (by rw [hx]; exact hi) (by rw [hz]; exact hk)
  rw [hy] at f2
  rw [hx, hz] at f3
  exact ⟨d1, d2, d3, _, _, _, e1, e2, e3, f1, f2, f3, Consensus.zdist_triangle hm _ _ _ i j k⟩

namespace Triangle

/-- The entry of a matrix profile for which all rows count. -/
theorem entry {d : Nat → Nat → ℝ} {h w : Nat} {far : Nat → Nat → Prop} {p : MP ℝ} (hp : IsProfile d h w far p) (hfar : ∀ r c, far r c) (hh : 0 < h) {c : Nat} (hc : c < w) :
    ∃ r < h, (MP.merged p.left p.right)[c]? = some (.fin (d r c)) ∧ (MP.mergedIdx p.left p.right p.leftIdx p.rightIdx)[c]? = some (r : Int) ∧ ∀ r' < h, d r c ≤ d r' c := by
  obtain ⟨_, _, v, _, _, i, -, -, h3, -, -, h6, -, -, h9⟩ := hp.entries c hc
  rcases h9 with ⟨-, h9⟩ | ⟨r, g1, -, rfl, rfl, g5⟩
  · exact absurd (hfar 0 c) (h9 0 hh)
  · exact ⟨r, g1, h3, h6, fun r' hr' => g5 r' hr' (hfar r' c)⟩

theorem chain {d1 d2 d3 : Nat → Nat → ℝ} {h1 w1 h2 h3 : Nat} {f1 f2 f3 : Nat → Nat → Prop} {p1 p2 p3 : MP ℝ} (e1 : IsProfile d1 h1 w1 f1 p1) (e2 : IsProfile d2 h2 h1 f2 p2)
    (e3 : IsProfile d3 h3 w1 f3 p3) (hf1 : ∀ r c, f1 r c) (hf2 : ∀ r c, f2 r c) (hf3 : ∀ r c, f3 r c) (he : h2 = h3) (hh1 : 0 < h1) (hh2 : 0 < h2) {ε : ℝ}
    (htri : ∀ c b r, d3 r c ≤ d1 b c + d2 r b + ε) (c : Nat) (hc : c < w1) :
    ∃ (b : Nat) (v1 v2 v3 : ℝ), (MP.merged p1.left p1.right)[c]? = some (.fin v1) ∧ (MP.mergedIdx p1.left p1.right p1.leftIdx p1.rightIdx)[c]? = some (b : Int) ∧
      (MP.merged p2.left p2.right)[b]? = some (.fin v2) ∧ (MP.merged p3.left p3.right)[c]? = some (.fin v3) ∧ v3 ≤ v1 + v2 + ε := by
  subst he
  obtain ⟨b, b1, b2, b3, -⟩ := entry e1 hf1 hh1 hc
  obtain ⟨r, r1, r2, -, -⟩ := entry e2 hf2 hh2 b1
  obtain ⟨r', -, k2, -, k4⟩ := entry e3 hf3 hh2 hc
  exact ⟨b, _, _, _, b2, b3, r2, k2, (k4 r r1).trans (htri c b r)⟩

theorem lipschitz {d d' : Nat → Nat → ℝ} {h w w' : Nat} {f f' : Nat → Nat → Prop} {p p' : MP ℝ} (e : IsProfile d h w f p) (e' : IsProfile d' h w' f' p')
    (hf : ∀ r c, f r c) (hf' : ∀ r c, f' r c) (hh : 0 < h) {δ ε : ℝ} {c c' : Nat} (hc : c < w) (hc' : c' < w') (htri : ∀ r, d r c ≤ δ + d' r c' + ε) :
    ∃ v v' : ℝ, (MP.merged p.left p.right)[c]? = some (.fin v) ∧ (MP.merged p'.left p'.right)[c']? = some (.fin v') ∧ v ≤ δ + v' + ε := by
  obtain ⟨r, -, r2, -, r4⟩ := entry e hf hh hc
  obtain ⟨r', k1, k2, -, -⟩ := entry e' hf' hh hc'
  exact ⟨_, _, r2, k2, (r4 r' k1).trans (htri r')⟩

end Triangle

/-- **C118, matrix profiles.** Complete calculations of the matrix profiles of `x` against `y`, of `y` against `z`, and of `x` against `z`, each by columns or by diagonals: the entry of
the third is at most the entry of the first plus the entry of the second at the match that the first reports (up to 2 · 10⁻⁶). Z-normalised distances. -/
theorem C118_chain_znorm (mem1 mem2 mem3 : ZN.Mem) (hmem1 : mem1.Ok) (hmem2 : mem2.Ok) (hmem3 : mem3.Ok) (sh1 sh2 sh3 : List Int → List Int) (hsh1 : ∀ l, (sh1 l).Perm l)
    (hsh2 : ∀ l, (sh2 l).Perm l) (hsh3 : ∀ l, (sh3 l).Perm l) (by1 by2 by3 : Bool) (m : Nat) (hm : 0 < m) (x y z : List ℝ) (hx : m ≤ x.length) (hy : m ≤ y.length)
    (hz : m ≤ z.length) (b1 b2 b3 : Option Int) :
    ∃ p1 p2 p3, matrixProfile (ZN.genOps mem1) (ZN.prepare mem1 0) sh1 by1 m (x.map .fin) (some (y.map .fin)) b1 = .ok p1 ∧
      matrixProfile (ZN.genOps mem2) (ZN.prepare mem2 0) sh2 by2 m (y.map .fin) (some (z.map .fin)) b2 = .ok p2 ∧
      matrixProfile (ZN.genOps mem3) (ZN.prepare mem3 0) sh3 by3 m (x.map .fin) (some (z.map .fin)) b3 = .ok p3 ∧
      ∀ c < x.length + 1 - m, ∃ (b : Nat) (v1 v2 v3 : ℝ), (MP.merged p1.left p1.right)[c]? = some (.fin v1) ∧
        (MP.mergedIdx p1.left p1.right p1.leftIdx p1.rightIdx)[c]? = some (b : Int) ∧ (MP.merged p2.left p2.right)[b]? = some (.fin v2) ∧
        (MP.merged p3.left p3.right)[c]? = some (.fin v3) ∧ v3 ≤ v1 + v2 + 2 / 10 ^ 6 := by
  obtain ⟨p1, e1, f1⟩ := C60_znorm mem1 hmem1 0 sh1 hsh1 by1 m hm x (some y) hx (by rintro _ ⟨⟩; exact hy) b1 (by simp)
  obtain ⟨p2, e2, f2⟩ := C60_znorm mem2 hmem2 0 sh2 hsh2 by2 m hm y (some z) hy (by rintro _ ⟨⟩; exact hz) b2 (by simp)
  obtain ⟨p3, e3, f3⟩ := C60_znorm mem3 hmem3 0 sh3 hsh3 by3 m hm x (some z) hx (by rintro _ ⟨⟩; exact hz) b3 (by simp)
  refine ⟨p1, p2, p3, e1, e2, e3, fun c hc => ?_⟩
  exact Triangle.chain f1 f2 f3 (by simp) (by simp) (by simp) rfl (by simp; omega) (by simp; omega) (fun c b r => Consensus.zdist_triangle hm _ _ _ c b r) c hc

/-- **C118, matrix profiles.** The same for Euclidean distances by diagonals, exactly. -/
theorem C118_chain_euclidean (mem1 mem2 mem3 : Nat → List (Fl ℝ)) (hmem1 : ∀ n, (mem1 n).length = n) (hmem2 : ∀ n, (mem2 n).length = n) (hmem3 : ∀ n, (mem3 n).length = n)
    (sh1 sh2 sh3 : List Int → List Int) (hsh1 : ∀ l, (sh1 l).Perm l) (hsh2 : ∀ l, (sh2 l).Perm l) (hsh3 : ∀ l, (sh3 l).Perm l) (m : Nat) (hm : 0 < m) (x y z : List ℝ)
    (hx : m ≤ x.length) (hy : m ≤ y.length) (hz : m ≤ z.length) (b1 b2 b3 : Option Int) :
    ∃ p1 p2 p3, matrixProfile (Eucl.genOps mem1 Real.sqrt) (Eucl.prepare mem1) sh1 false m (x.map .fin) (some (y.map .fin)) b1 = .ok p1 ∧
      matrixProfile (Eucl.genOps mem2 Real.sqrt) (Eucl.prepare mem2) sh2 false m (y.map .fin) (some (z.map .fin)) b2 = .ok p2 ∧
      matrixProfile (Eucl.genOps mem3 Real.sqrt) (Eucl.prepare mem3) sh3 false m (x.map .fin) (some (z.map .fin)) b3 = .ok p3 ∧
      ∀ c < x.length + 1 - m, ∃ (b : Nat) (v1 v2 v3 : ℝ), (MP.merged p1.left p1.right)[c]? = some (.fin v1) ∧
        (MP.mergedIdx p1.left p1.right p1.leftIdx p1.rightIdx)[c]? = some (b : Int) ∧ (MP.merged p2.left p2.right)[b]? = some (.fin v2) ∧
        (MP.merged p3.left p3.right)[c]? = some (.fin v3) ∧ v3 ≤ v1 + v2 := by
  obtain ⟨p1, e1, f1⟩ := C60_euclidean_diagonals mem1 hmem1 Real.sqrt sh1 hsh1 m hm x (some y) hx (by rintro _ ⟨⟩; exact hy) b1 (by simp)
  obtain ⟨p2, e2, f2⟩ := C60_euclidean_diagonals mem2 hmem2 Real.sqrt sh2 hsh2 m hm y (some z) hy (by rintro _ ⟨⟩; exact hz) b2 (by simp)
  obtain ⟨p3, e3, f3⟩ := C60_euclidean_diagonals mem3 hmem3 Real.sqrt sh3 hsh3 m hm x (some z) hx (by rintro _ ⟨⟩; exact hz) b3 (by simp)
  refine ⟨p1, p2, p3, e1, e2, e3, fun c hc => ?_⟩
  simpa only [add_zero] using Triangle.chain f1 f2 f3 (by simp) (by simp) (by simp) rfl (by simp; omega) (by simp; omega) (ε := 0)
    (fun c b r => by rw [add_zero]; exact Triangle.euclidean m _ _ _ c b r) c hc

/-- **C118, matrix profiles.** The entries of the matrix profiles of `x` and of `x'` against the same query differ by at most the distance of the two subsequences
(up to 2 · 10⁻⁶). Z-normalised distances; with `x' = x` two entries of the same matrix profile. -/
theorem C118_lipschitz_znorm (mem mem' : ZN.Mem) (hmem : mem.Ok) (hmem' : mem'.Ok) (sh sh' : List Int → List Int) (hsh : ∀ l, (sh l).Perm l) (hsh' : ∀ l, (sh' l).Perm l)
    (by1 by2 : Bool) (m : Nat) (hm : 0 < m) (x x' y : List ℝ) (hx : m ≤ x.length) (hx' : m ≤ x'.length) (hy : m ≤ y.length) (b b' : Option Int) :
    ∃ p p', matrixProfile (ZN.genOps mem) (ZN.prepare mem 0) sh by1 m (x.map .fin) (some (y.map .fin)) b = .ok p ∧
      matrixProfile (ZN.genOps mem') (ZN.prepare mem' 0) sh' by2 m (x'.map .fin) (some (y.map .fin)) b' = .ok p' ∧
      ∀ c < x.length + 1 - m, ∀ c' < x'.length + 1 - m, ∃ v v' : ℝ, (MP.merged p.left p.right)[c]? = some (.fin v) ∧ (MP.merged p'.left p'.right)[c']? = some (.fin v') ∧
        |v - v'| ≤ zdist m 0 (seqOf x) (seqOf x') c' c + 2 / 10 ^ 6 := by
  obtain ⟨p, e, f⟩ := C60_znorm mem hmem 0 sh hsh by1 m hm x (some y) hx (by rintro _ ⟨⟩; exact hy) b (by simp)
  obtain ⟨p', e', f'⟩ := C60_znorm mem' hmem' 0 sh' hsh' by2 m hm x' (some y) hx' (by rintro _ ⟨⟩; exact hy) b' (by simp)
  refine ⟨p, p', e, e', fun c hc c' hc' => ?_⟩
  have hh : 0 < ((some y).getD x).length + 1 - m := by simp; omega
  obtain ⟨v, v', h1, h2, h3⟩ := Triangle.lipschitz f f' (by simp) (by simp) hh hc hc' (fun r => Consensus.zdist_triangle hm (seqOf x) (seqOf x') (seqOf y) c c' r)
  obtain ⟨u', u, g1, g2, g3⟩ := Triangle.lipschitz f' f (by simp) (by simp) hh hc' hc (fun r => Consensus.zdist_triangle hm (seqOf x') (seqOf x) (seqOf y) c' c r)
  rw [h1] at g2
  cases g2
  rw [h2] at g1
  cases g1
  rw [zdist_symm] at g3
  exact ⟨v, v', h1, h2, abs_le.mpr ⟨by linarith, by linarith⟩⟩

/-- **C118, matrix profiles.** The same for Euclidean distances by diagonals, exactly. -/
theorem C118_lipschitz_euclidean (mem mem' : Nat → List (Fl ℝ)) (hmem : ∀ n, (mem n).length = n) (hmem' : ∀ n, (mem' n).length = n) (sh sh' : List Int → List Int)
    (hsh : ∀ l, (sh l).Perm l) (hsh' : ∀ l, (sh' l).Perm l) (m : Nat) (hm : 0 < m) (x x' y : List ℝ) (hx : m ≤ x.length) (hx' : m ≤ x'.length) (hy : m ≤ y.length)
    (b b' : Option Int) :
    ∃ p p', matrixProfile (Eucl.genOps mem Real.sqrt) (Eucl.prepare mem) sh false m (x.map .fin) (some (y.map .fin)) b = .ok p ∧
      matrixProfile (Eucl.genOps mem' Real.sqrt) (Eucl.prepare mem') sh' false m (x'.map .fin) (some (y.map .fin)) b' = .ok p' ∧
      ∀ c < x.length + 1 - m, ∀ c' < x'.length + 1 - m, ∃ v v' : ℝ, (MP.merged p.left p.right)[c]? = some (.fin v) ∧ (MP.merged p'.left p'.right)[c']? = some (.fin v') ∧
        |v - v'| ≤ √(sqd m (seqOf x) (seqOf x') c' c) := by
  obtain ⟨p, e, f⟩ := C60_euclidean_diagonals mem hmem Real.sqrt sh hsh m hm x (some y) hx (by rintro _ ⟨⟩; exact hy) b (by simp)
  obtain ⟨p', e', f'⟩ := C60_euclidean_diagonals mem' hmem' Real.sqrt sh' hsh' m hm x' (some y) hx' (by rintro _ ⟨⟩; exact hy) b' (by simp)
  refine ⟨p, p', e, e', fun c hc c' hc' => ?_⟩
  have hh : 0 < ((some y).getD x).length + 1 - m := by simp; omega
  obtain ⟨v, v', h1, h2, h3⟩ := Triangle.lipschitz (ε := 0) f f' (by simp) (by simp) hh hc hc'
    (fun r => by rw [add_zero]; exact Triangle.euclidean m (seqOf x) (seqOf x') (seqOf y) c c' r)
  obtain ⟨u', u, g1, g2, g3⟩ := Triangle.lipschitz (ε := 0) f' f (by simp) (by simp) hh hc' hc
    (fun r => by rw [add_zero]; exact Triangle.euclidean m (seqOf x') (seqOf x) (seqOf y) c' c r)
  rw [h1] at g2
  cases g2
  rw [h2] at g1
  cases g1
  rw [sqd_symm] at g3
  exact ⟨v, v', h1, h2, abs_le.mpr ⟨by linarith, by linarith⟩⟩

/-! ### Concrete cases -/

/-- Memory full of ones. -/
def triangleMem (n : Nat) : List (Fl ℝ) := List.replicate n (.fin 1)


/-- Three fresh generators. -/
example : ∃ (d1 d2 d3 : List (Fl ℝ)) (v1 v2 v3 : ℝ), d1[min 0 1]? = some (.fin v1) ∧ d2[min 1 0]? = some (.fin v2) ∧ d3[min 1 1]? = some (.fin v3) ∧ v3 ≤ v1 + v2 := by
  have hmem : ∀ n, (triangleMem n).length = n := fun n => by simp [triangleMem]
  obtain ⟨g1, h1, -⟩ := Eucl.prepare_ok triangleMem hmem 2 (by norm_num) [1, 5, 2] (some [0, 3]) (by simp) (by simp)
  obtain ⟨g2, h2, -⟩ := Eucl.prepare_ok triangleMem hmem 2 (by norm_num) [0, 3] (some [7, 1, 4]) (by simp) (by simp)
  obtain ⟨g3, h3, -⟩ := Eucl.prepare_ok triangleMem hmem 2 (by norm_num) [1, 5, 2] (some [7, 1, 4]) (by simp) (by simp)
  obtain ⟨d1, d2, d3, v1, v2, v3, -, -, -, k1, k2, k3, k4⟩ := C118_euclidean triangleMem triangleMem triangleMem hmem hmem hmem 2 (by norm_num) 3 2 3 (some 2) (some 3) (some 3) g1 g1 g2 g2 g3 g3
    ⟨[1, 5, 2], [0, 3], none⟩ ⟨[0, 3], [7, 1, 4], none⟩ ⟨[1, 5, 2], [7, 1, 4], none⟩ (.batch [1, 5, 2] (some [0, 3]) g1 (by simp) (by simp) h1)
    (.batch [0, 3] (some [7, 1, 4]) g2 (by simp) (by simp) h2) (.batch [1, 5, 2] (some [7, 1, 4]) g3 (by simp) (by simp) h3) [] [] [] rfl rfl rfl [1, 5, 2] [0, 3] [7, 1, 4]
    ⟨rfl, rfl⟩ ⟨rfl, rfl⟩ ⟨rfl, rfl⟩ 1 0 1 (by simp) (by simp) (by simp)
  exact ⟨d1, d2, d3, v1, v2, v3, k1, k2, k3, k4⟩

example : ∃ (d1 d2 d3 : List (Fl ℝ)) (v1 v2 v3 : ℝ), d1[min 0 1]? = some (.fin v1) ∧ d2[min 1 0]? = some (.fin v2) ∧ d3[min 1 1]? = some (.fin v3) ∧ v3 ≤ v1 + v2 + 2 / 10 ^ 6 := by
  obtain ⟨g1, h1, -⟩ := ZN.prepare_ok ZN.zeroMem ZN.zeroMem_ok 0 2 (by norm_num) [1, 5, 2] (some [0, 3]) (by simp) (by simp)
  obtain ⟨g2, h2, -⟩ := ZN.prepare_ok ZN.zeroMem ZN.zeroMem_ok 0 2 (by norm_num) [0, 3] (some [7, 1, 4]) (by simp) (by simp)
  obtain ⟨g3, h3, -⟩ := ZN.prepare_ok ZN.zeroMem ZN.zeroMem_ok 0 2 (by norm_num) [1, 5, 2] (some [7, 1, 4]) (by simp) (by simp)
  obtain ⟨d1, d2, d3, v1, v2, v3, -, -, -, k1, k2, k3, k4⟩ := C118_znorm ZN.zeroMem ZN.zeroMem ZN.zeroMem ZN.zeroMem_ok ZN.zeroMem_ok ZN.zeroMem_ok 2 (by norm_num) 3 2 3
    (some 2) (some 3) (some 3) g1 g1 g2 g2 g3 g3
    ⟨[1, 5, 2], [0, 3], none⟩ ⟨[0, 3], [7, 1, 4], none⟩ ⟨[1, 5, 2], [7, 1, 4], none⟩ (.batch [1, 5, 2] (some [0, 3]) g1 (by simp) (by simp) h1)
    (.batch [0, 3] (some [7, 1, 4]) g2 (by simp) (by simp) h2) (.batch [1, 5, 2] (some [7, 1, 4]) g3 (by simp) (by simp) h3) [] [] [] rfl rfl rfl [1, 5, 2] [0, 3] [7, 1, 4]
    ⟨rfl, rfl⟩ ⟨rfl, rfl⟩ ⟨rfl, rfl⟩ 1 0 1 (by simp) (by simp) (by simp)
  exact ⟨d1, d2, d3, v1, v2, v3, k1, k2, k3, k4⟩

example := C118_chain_znorm ZN.zeroMem ZN.zeroMem ZN.zeroMem ZN.zeroMem_ok ZN.zeroMem_ok ZN.zeroMem_ok id List.reverse id (fun l => List.Perm.refl l) (fun l => List.reverse_perm l)
  (fun l => List.Perm.refl l) true false true 2 (by norm_num) [1, 5, 2] [0, 3] [7, 1, 4, 4] (by simp) (by simp) (by simp) none none (some 3)

example := C118_chain_euclidean triangleMem triangleMem triangleMem (fun n => by simp [triangleMem]) (fun n => by simp [triangleMem]) (fun n => by simp [triangleMem]) id List.reverse id
  (fun l => List.Perm.refl l) (fun l => List.reverse_perm l) (fun l => List.Perm.refl l) 2 (by norm_num) [1, 5, 2] [0, 3] [7, 1, 4, 4] (by simp) (by simp) (by simp) none none (some 3)

example := C118_lipschitz_znorm ZN.zeroMem ZN.zeroMem ZN.zeroMem_ok ZN.zeroMem_ok id List.reverse (fun l => List.Perm.refl l) (fun l => List.reverse_perm l) true false 2 (by norm_num)
  [1, 5, 2] [0, 3, 3] [7, 1, 4, 4] (by simp) (by simp) (by simp) none none

example := C118_lipschitz_euclidean triangleMem triangleMem (fun n => by simp [triangleMem]) (fun n => by simp [triangleMem]) id List.reverse (fun l => List.Perm.refl l)
  (fun l => List.reverse_perm l) 2 (by norm_num) [1, 5, 2] [0, 3, 3] [7, 1, 4, 4] (by simp) (by simp) (by simp) none none

/-- Squared distances do not satisfy it: the profiles of the chain 0, 1, 2 of series of length 1. -/
example : (matrixProfile (Eucl.genOps zeroMem id) (Eucl.prepare zeroMem) id false 1 [.fin (0 : ℚ)] (some [.fin 1]) none).map (fun p => MP.merged p.left p.right) = .ok [.fin 1] ∧
    (matrixProfile (Eucl.genOps zeroMem id) (Eucl.prepare zeroMem) id false 1 [.fin (1 : ℚ)] (some [.fin 2]) none).map (fun p => MP.merged p.left p.right) = .ok [.fin 1] ∧
    (matrixProfile (Eucl.genOps zeroMem id) (Eucl.prepare zeroMem) id false 1 [.fin (0 : ℚ)] (some [.fin 2]) none).map (fun p => MP.merged p.left p.right) = .ok [.fin 4] := by
  decide +kernel

end Verif
