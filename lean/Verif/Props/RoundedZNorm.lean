import Verif.Lemmas.RoundedZNorm
import Verif.Lemmas.Rounding

/-!
# C84: the z-normalised generator in floating point returns numbers
-/

namespace Verif
open Spec

namespace RoundedZ

theorem ltF_fin {K : Type} [LinearOrder K] (a b : K) : (Fl.fin a).ltF (.fin b) = decide (a < b) := by
  unfold Fl.ltF
  rw [Bool.eq_iff_iff]
  simp [Fl.fin_lt_fin]

variable {K : Type} [Field K] [LinearOrder K]

/-- Columns and diagonals use the same formulas. -/
theorem diagEntry_eq (rnd : K → K) (m noise : K) (dot : Fl K) (muq stdq : K) (nzq : Bool) (mus stds : K) (nzs : Bool) :
    diagEntry rnd m noise dot muq stdq nzq mus stds nzs = colEntry rnd m noise nzs mus stds dot muq stdq nzq := by
  unfold diagEntry colEntry
  cases nzq <;> cases nzs <;> simp

theorem diagValue_eq (rnd : K → K) (stat : Stat K) (m : Nat) (noise v : K) (w x : List K) :
    diagValue rnd stat m noise v w x = colValue rnd stat m noise v w x := diagEntry_eq _ _ _ _ _ _ _ _ _ _

theorem div_fin (rnd : K → K) (a b : K) (h : b ≠ 0) : div rnd (.fin a) (.fin b) = .fin (rnd (a / b)) := by
  simp [div, Rounded.fl, Fl.div, h]

theorem formula_fin (rnd : K → K) (m v muq stdq mus stds : K) (h : rnd (stdq * stds) ≠ 0) :
    formula rnd m (.fin v) muq stdq mus stds =
      .fin (rnd (2 * rnd (m - rnd (rnd (v - rnd (rnd (m * muq) * mus)) / rnd (stdq * stds))))) := by
  have hm : ∀ a b : K, Rounded.mul rnd (.fin a) (.fin b) = .fin (rnd (a * b)) := mul_fin
  have hs : ∀ a b : K, Rounded.sub rnd (.fin a) (.fin b) = .fin (rnd (a - b)) := fun a b => by simp [Rounded.sub, Rounded.fl]
  unfold formula
  simp only [hm, hs, div_fin rnd _ _ h]

theorem noiseTerm_fin (rnd : K → K) (m noise stds stdq : K) (h : rnd (max stds stdq * max stds stdq) ≠ 0) :
    noiseTerm rnd m noise stds stdq =
      .fin (rnd (rnd (2 * (m + 1) * rnd (noise * noise)) / rnd (max stds stdq * max stds stdq))) := by
  have hm : ∀ a b : K, Rounded.mul rnd (.fin a) (.fin b) = .fin (rnd (a * b)) := mul_fin
  have hs : ∀ a : K, Rounded.square rnd (.fin a) = .fin (rnd (a * a)) := fun a => by simp [Rounded.square, Rounded.fl, Fl.square]
  unfold noiseTerm
  simp only [hm, hs, div_fin rnd _ _ h]

/-- The entry before small values are replaced by 0. -/
def raw (rnd : K → K) (m noise v muq stdq mus stds : K) (nzs nzq : Bool) : K :=
  let d := if nzs then if nzq then rnd (2 * rnd (m - rnd (rnd (v - rnd (rnd (m * muq) * mus)) / rnd (stdq * stds)))) else m
    else if nzq then m else 0
  if noise ≠ 0 then
    if nzs || nzq then rnd (d - rnd (rnd (2 * (m + 1) * rnd (noise * noise)) / rnd (max stds stdq * max stds stdq))) else d
  else d

theorem colEntry_fin (rnd : K → K) (m noise v muq stdq mus stds : K) (nzs nzq : Bool)
    (h1 : nzs = true → nzq = true → rnd (stdq * stds) ≠ 0) (h2 : (nzs || nzq) = true → rnd (max stds stdq * max stds stdq) ≠ 0) :
    colEntry rnd m noise nzs mus stds (.fin v) muq stdq nzq =
      .fin (if raw rnd m noise v muq stdq mus stds nzs nzq < rnd eps then 0 else raw rnd m noise v muq stdq mus stds nzs nzq) := by
  have hs : ∀ a b : K, Rounded.sub rnd (.fin a) (.fin b) = .fin (rnd (a - b)) := fun a b => by simp [Rounded.sub, Rounded.fl]
  have hite : ∀ x : K, (if (Fl.fin x).ltF (.fin (rnd eps)) = true then (Fl.fin 0 : Fl K) else .fin x) = .fin (if x < rnd eps then 0 else x) := by
    intro x
    rw [ltF_fin]
    by_cases h : x < rnd eps <;> simp [h]
  unfold colEntry raw
  cases nzs <;> cases nzq <;> by_cases hn : noise = 0 <;>
    simp_all [formula_fin, noiseTerm_fin]

variable [IsStrictOrderedRing K] {rnd : K → K} {u η : K}

theorem flat_nonneg (hr : IsRounding rnd u η) : 0 ≤ rnd (flat : K) := hr.nonneg (by unfold flat; positivity)

theorem eps_nonneg (hr : IsRounding rnd u η) : 0 ≤ rnd (eps : K) := hr.nonneg (by unfold eps; positivity)

/-- An entry is always a number that is not negative. -/
theorem colValue_number (hr : IsRounding rnd u η) (h : 0 < rnd (rnd flat * rnd flat)) (stat : Stat K) (m : Nat) (noise v : K) (w x : List K) :
    ∃ d, 0 ≤ d ∧ colValue rnd stat m noise v w x = .fin d := by
  have h0 := flat_nonneg (K := K) hr
  have key : ∀ a b : K, rnd flat < a → rnd flat < b → rnd (a * b) ≠ 0 := by
    intro a b ha hb
    have := hr.mono (mul_le_mul ha.le hb.le h0 (h0.trans ha.le))
    exact (h.trans_le this).ne'
  unfold colValue
  rw [colEntry_fin _ _ _ _ _ _ _ _ _ _ (by
      intro a b
      rw [decide_eq_true_eq] at a b
      exact key _ _ b a) (by
      intro a
      rw [Bool.or_eq_true, decide_eq_true_eq, decide_eq_true_eq] at a
      have : rnd flat < max (stat.std w) (stat.std x) := by
        rcases a with a | a
        · exact lt_max_of_lt_left a
        · exact lt_max_of_lt_right a
      exact key _ _ this this)]
  refine ⟨_, ?_, rfl⟩
  split
  · exact le_rfl
  · rename_i hlt
    exact (eps_nonneg hr).trans (not_lt.1 hlt)

/-- What is assumed of `scipy.signal.convolve` here: on finite data it returns one finite number per window. -/
def ConvNumbers (m : Nat) (conv : List (Fl K) → List (Fl K) → Except PyErr (List (Fl K))) : Prop :=
  ∀ x w : List K, w.length = m → m ≤ x.length → ∃ vs : List K, conv (x.map .fin) (w.map .fin) = .ok (vs.map .fin) ∧ vs.length = x.length + 1 - m

omit [LinearOrder K] [IsStrictOrderedRing K] in
theorem ConvNumbers.rel {m : Nat} {conv : List (Fl K) → List (Fl K) → Except PyErr (List (Fl K))} (h : ConvNumbers m conv) (x w : List K)
    (hw : w.length = m) (hx : m ≤ x.length) : Rounded.FullRel m (fun _ _ _ => True) conv x w := by
  obtain ⟨vs, h1, h2⟩ := h x w hw hx
  refine ⟨_, h1, ?_⟩
  unfold Rounded.Row
  rw [List.forall₂_iff_get]
  refine ⟨by simp [h2], ?_⟩
  intro i hi hi'
  exact ⟨vs[i]'(by simpa using hi), by simp, trivial⟩

omit [IsStrictOrderedRing K] in
theorem ConvNumbers.steps {m : Nat} {conv : List (Fl K) → List (Fl K) → Except PyErr (List (Fl K))} (h : ConvNumbers m conv) (s q : List K)
    (hs : m ≤ s.length) (hq : m ≤ q.length) : Steps rnd conv (fun _ _ _ => True) (fun _ _ _ _ => True) m s q := by
  refine ⟨fun n hn => h.rel _ _ (by rw [List.length_take]; omega) (by rw [lastN_length]; omega),
    fun j hj => h.rel _ _ (by rw [List.length_take, List.length_drop]; omega) hq, ?_, ?_, ?_⟩ <;> intros <;> trivial

end RoundedZ

open RoundedZ in
/-- **C84**: in floating point arithmetic without overflow (any rounding function as described by `IsRounding` under which the square of
1e-6 does not vanish, in particular `float64`), whatever numbers `np.mean`, `np.std` and `convolve` calculate: after any calls to a
batch or streaming z-normalised generator (valid and `Safe`), none of which raises, `calc_column(c)` returns one value per query
subsequence, and every value is a number, never NaN, infinite or (if the square root is not) negative. -/
theorem C84_column {K : Type} [Field K] [LinearOrder K] [IsStrictOrderedRing K] (rnd : K → K) (u η : K) (hr : IsRounding rnd u η)
    (hflat : 0 < rnd (rnd (1 / 10 ^ 6) * rnd (1 / 10 ^ 6))) (stat : Stat K) (conv : List (Fl K) → List (Fl K) → Except PyErr (List (Fl K)))
    (m : Nat) (hconv : ConvNumbers m conv) (mem : Mem K) (hmem : mem.Ok) (sq : K → K) (noise : K) (N : Nat) (M : Option Nat) (z0 : Gen K)
    (st0 : GSt K) (hm : 0 < m) (h0 : Fresh rnd stat mem m noise z0 N M st0) (ops : List (GOp K)) (c : Nat)
    (hok : st0.All N M (fun st op => st.Valid m M op ∧ st.Safe op) (ops ++ [.column c])) :
    ∃ z z' vs, RoundedZ.run rnd stat conv mem sq z0 ops = .ok z ∧ RoundedZ.calcColumn rnd conv mem.fl sq z c = .ok (z', vs) ∧
      vs.length = (st0.run N M ops).q.length + 1 - m ∧ ∀ v ∈ vs, ∃ d, 0 ≤ d ∧ v = .fin (rnd (sq d)) := by
  obtain ⟨z, z', vs, h1, h2, h3, h4⟩ := RoundedZ.column_after (sq := sq) hr.idem hmem m noise N M z0 st0 hm h0 ops c
    (R := fun _ _ _ => True) (P := fun _ _ _ _ => True)
    (Eucl.GSt.All.mono (fun st op h => ⟨h.1, h.2, fun c' hc' => by
      have := h.1; rw [hc'] at this
      exact hconv.steps st.s st.q (by have := this.1; omega) this.2⟩) st0 _ hok)
  refine ⟨z, z', vs, h1, h2, h3, fun v hv => ?_⟩
  obtain ⟨i, hi, rfl⟩ := List.mem_iff_getElem.1 hv
  obtain ⟨r, h5, -⟩ := h4 i (by omega)
  obtain ⟨d, d1, d2⟩ := colValue_number hr hflat stat m noise r (((st0.run N M ops).s.drop c).take m) (((st0.run N M ops).q.drop i).take m)
  rw [List.getElem?_eq_getElem hi, d2, Fl.sqrtF_fin _ _ d1] at h5
  exact ⟨d, d1, Option.some.inj h5⟩

open RoundedZ in
/-- **C84** for `calc_diagonal(d)`: one number per pair on the diagonal, after any calls that did not raise. -/
theorem C84_diagonal {K : Type} [Field K] [LinearOrder K] [IsStrictOrderedRing K] (rnd : K → K) (u η : K) (hr : IsRounding rnd u η)
    (hflat : 0 < rnd (rnd (1 / 10 ^ 6) * rnd (1 / 10 ^ 6))) (stat : Stat K) (conv : List (Fl K) → List (Fl K) → Except PyErr (List (Fl K)))
    (m : Nat) (mem : Mem K) (hmem : mem.Ok) (sq : K → K) (noise : K) (N : Nat) (M : Option Nat) (z0 z : Gen K) (st0 : GSt K) (hm : 0 < m)
    (h0 : Fresh rnd stat mem m noise z0 N M st0) (ops : List (GOp K)) (hrun : RoundedZ.run rnd stat conv mem sq z0 ops = .ok z) (d : Int)
    (hd : (st0.run N M ops).Valid m M (.diag d)) :
    ∃ vs, RoundedZ.calcDiagonal rnd sq z d = .ok vs ∧
      vs.length = diagEntries m (st0.run N M ops).q.length (st0.run N M ops).s.length d ∧ ∀ v ∈ vs, ∃ d, 0 ≤ d ∧ v = .fin (rnd (sq d)) := by
  obtain ⟨n, -, -, -, h⟩ := RoundedZ.calcDiagonal_values (sq := sq) hr.idem z m noise N M _ d
    (run_base z0 z m noise N M st0 ops (h0.base hmem hm).1 hrun) hd
  refine ⟨_, h, by simp, fun v hv => ?_⟩
  rw [List.mem_map] at hv
  obtain ⟨k, -, rfl⟩ := hv
  rw [diagValue_eq]
  obtain ⟨d, d1, d2⟩ := colValue_number hr hflat stat m noise _ _ _
  rw [d2, Fl.sqrtF_fin _ _ d1]
  exact ⟨d, d1, rfl⟩

end Verif
