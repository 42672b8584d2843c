import Verif.Model.FloatBatch
import Verif.Spec.FloatBatch
import Verif.Props.RoundedStats
import Verif.Lemmas.NearServes
import Verif.Lemmas.Serves
import Verif.Props.StreamFeed
import Verif.Props.ZNormLaws

/-!
Generators in floating point inside whole calculations.
-/

namespace Verif
open Spec

namespace Rounded
variable {K : Type} [Field K] [LinearOrder K] {rnd : K → K}

theorem columnErr_mono [IsStrictOrderedRing K] {u η : K} (hr : IsRounding rnd u η) (m : Nat) (L : K) {n n' : Nat} (h : n ≤ n') :
    columnErr u η (rnd Eucl.eps) m L n ≤ columnErr u η (rnd Eucl.eps) m L n' := by
  unfold columnErr
  have hu := hr.u_nonneg
  have h1 := updateErr_nonneg hr m L
  have h0 : 0 ≤ fullErr u η (rnd Eucl.eps) m L := fullErr_nonneg hr m L
  have h2 : (1 + u) ^ (2 * n) ≤ (1 + u) ^ (2 * n') := pow_le_pow_right₀ (by linarith) (by omega)
  have h3 : (n : K) * updateErr u η m L ≤ n' * updateErr u η m L := mul_le_mul_of_nonneg_right (by exact_mod_cast h) h1
  have h4 : (0 : K) ≤ n * updateErr u η m L := mul_nonneg (Nat.cast_nonneg n) h1
  apply mul_le_mul h2 (by linarith) (by linarith) (by positivity)

end Rounded

end Verif

/-! ### The two generators -/

namespace Verif
open Spec
variable {A A' : Type}

theorem WinServes.inl {E K : Type} {a : GenOps A K} {b : GenOps A' K} {m N : Nat} {M : Option Nat} {RelD RelC : List E → List E → Fl K → Prop}
    {Ok : GSt E → GOp E → Prop} {Inv : A → GSt E → Prop} (H : WinServes a m N M RelD RelC Ok Inv) :
    WinServes (a.sum b) m N M RelD RelC Ok (fun g st => ∃ x, g = .inl x ∧ Inv x st) := by
  refine ⟨?_, ?_⟩
  · rintro g st c ⟨x, rfl, hi⟩ hok
    obtain ⟨x', vs, h1, h2, h3, h4⟩ := H.column x st c hi hok
    exact ⟨.inl x', vs, by simp [GenOps.sum, h1, Except.map], h2, h3, x', rfl, h4⟩
  · rintro g st d ⟨x, rfl, hi⟩ hok
    obtain ⟨x', vs, h1, h2, h3, h4⟩ := H.diag x st d hi hok
    exact ⟨.inl x', vs, by simp [GenOps.sum, h1, Except.map], h2, h3, x', rfl, h4⟩

theorem WinServes.inr {E K : Type} {a : GenOps A K} {b : GenOps A' K} {m N : Nat} {M : Option Nat} {RelD RelC : List E → List E → Fl K → Prop}
    {Ok : GSt E → GOp E → Prop} {Inv : A' → GSt E → Prop} (H : WinServes b m N M RelD RelC Ok Inv) :
    WinServes (a.sum b) m N M RelD RelC Ok (fun g st => ∃ x, g = .inr x ∧ Inv x st) := by
  refine ⟨?_, ?_⟩
  · rintro g st c ⟨x, rfl, hi⟩ hok
    obtain ⟨x', vs, h1, h2, h3, h4⟩ := H.column x st c hi hok
    exact ⟨.inr x', vs, by simp [GenOps.sum, h1, Except.map], h2, h3, x', rfl, h4⟩
  · rintro g st d ⟨x, rfl, hi⟩ hok
    obtain ⟨x', vs, h1, h2, h3, h4⟩ := H.diag x st d hi hok
    exact ⟨.inr x', vs, by simp [GenOps.sum, h1, Except.map], h2, h3, x', rfl, h4⟩

/-- From the error of one value to that of all values. -/
theorem rootErr_le {u η B B' d A y : ℝ} (hu : 0 ≤ u) (h : |y - d| ≤ (1 + u) * √B + u * d + η) (hB : B ≤ B') (hd : d ≤ A) :
    |y - d| ≤ rootErr u η B' A := by
  unfold rootErr
  have h1 : (1 + u) * √B ≤ (1 + u) * √B' := mul_le_mul_of_nonneg_left (Real.sqrt_le_sqrt hB) (by linarith)
  have h2 : u * d ≤ u * A := mul_le_mul_of_nonneg_left hd hu
  linarith

namespace Rounded
variable {rnd : ℝ → ℝ} {u η : ℝ}

/-- Invariant of the Euclidean generator. -/
def Holds (rnd : ℝ → ℝ) (u η : ℝ) (m : Nat) (L : ℝ) (N : Nat) (M : Option Nat) (x : ColCache ℝ) (st : GSt ℝ) : Prop :=
  x.Data m N M st.s st.q ∧
    Cache (fun v w x => |v - pairSum (fun a b => (a - b) ^ 2) w x| ≤ fullErr u η (rnd Eucl.eps) m L ∧ rnd v = v)
      (fun i v w x => |v - pairSum (fun a b => (a - b) ^ 2) w x| ≤ columnErr u η (rnd Eucl.eps) m L i ∧ rnd v = v)
      x m N st.s st.q st.last

/-- Calls on data within bounds. -/
def CallOk (rnd : ℝ → ℝ) (m : Nat) (L : ℝ) (n : Nat) (M : Option Nat) (st : GSt ℝ) (op : GOp ℝ) : Prop :=
  st.Valid m M op ∧ st.Safe op ∧ Bounded rnd L st.s ∧ Bounded rnd L st.q ∧ st.q.length ≤ n

theorem sqrt_sqd_le (m : Nat) (s q : List ℝ) (i j : Nat) (L : ℝ) (hL : 0 ≤ L) (hs : Bounded rnd L s) (hq : Bounded rnd L q) (hi : i + m ≤ q.length)
    (hj : j + m ≤ s.length) : √(sqd m (seqOf s) (seqOf q) i j) ≤ 2 * √m * L := by
  rw [Real.sqrt_le_left (by positivity)]
  refine (sqd_bound m s q i j L hs hq hi hj).trans (le_of_eq ?_)
  rw [mul_pow, mul_pow, Real.sq_sqrt (Nat.cast_nonneg m)]
  ring

theorem winServes (hr : IsRounding rnd u η) (dots : Dots ℝ) (hdots : dots.Ok rnd) (mem : Nat → List (Fl ℝ)) (hmem : ∀ n, (mem n).length = n)
    (m N : Nat) (M : Option Nat) (n : Nat) (L : ℝ) (hL : 0 ≤ L) (scale : ℚ) :
    WinServes (Rounded.genOps rnd dots mem Real.sqrt) m N M
      (fun w x v => Within (rootErr u η (euclidSqErr u η (rnd (1 / 10 ^ 15)) m L n) (2 * √m * L)) 0 ((GenKind.euclidean scale).dist m w x) v)
      (fun w x v => Within (rootErr u η (euclidSqErr u η (rnd (1 / 10 ^ 15)) m L n) (2 * √m * L)) (columnErr u η (rnd (1 / 10 ^ 15)) m L n)
        ((GenKind.euclidean scale).dist m w x) v)
      (CallOk rnd m L n M) (Holds rnd u η m L N M) := by
  have hu := hr.u_nonneg
  refine ⟨?_, ?_⟩
  · rintro g st c ⟨hd, hc⟩ ⟨hv, hsafe, bs, bq, hN⟩
    have hm := hd.m_pos
    obtain ⟨g', vs, h1, h2, h3, h4, h5⟩ := calcColumn_ok (sq := Real.sqrt) hmem hdots g m N M st c id id (fun _ => rfl) hd
      (P := fun n v w x => |v - pairSum (fun a b => (a - b) ^ 2) w x| ≤ columnErr u η (rnd Eucl.eps) m L n ∧ rnd v = v) hc hv hsafe
      (bounded_steps hr m hm st.s st.q L bs bq hv.2)
    refine ⟨g', vs, h1, h4, fun i v hi => ?_, h2, ?_⟩
    · have hlt := (List.getElem?_eq_some_iff.mp hi).1
      have hiq : i + m ≤ st.q.length := by omega
      obtain ⟨x, e, e1, e2⟩ := h5 i hiq
      rw [hi] at e
      have e := Option.some.inj e
      rw [Eucl.pair_sqd m _ _ i c hv.1 hiq] at e1
      have e3 : |x - sqd m (seqOf st.s) (seqOf st.q) i c| ≤ columnErr u η (rnd (1 / 10 ^ 15)) m L n :=
        e1.trans (columnErr_mono hr m L (by simp only [id]; omega))
      have hnn := Eucl.sqd_nonneg m (seqOf st.s) (seqOf st.q) i c
      refine ⟨√(sqd m (seqOf st.s) (seqOf st.q) i c), by simp only [GenKind.dist, sqd_win], ?_⟩
      by_cases hx : x < 0
      · left
        refine ⟨by rw [e]; simp [Fl.sqrtF, hx, fl], ?_⟩
        rw [Real.sq_sqrt hnn]
        have := (abs_le.1 e3).1
        linarith
      · right
        rw [not_lt] at hx
        refine ⟨rnd (√x), by rw [e, Fl.sqrtF_fin _ _ hx]; rfl, hr.nonneg (Real.sqrt_nonneg x), ?_⟩
        exact rootErr_le hu (sqrt_close hr x _ _ hx hnn e3) (le_max_left _ _) (sqrt_sqd_le m _ _ i c L hL bs bq hiq hv.1)
    · simpa [GSt.step] using h3
  · rintro g st d ⟨hd, hc⟩ ⟨hv, hsafe, bs, bq, hN⟩
    have hm := hd.m_pos
    obtain ⟨vs, h1, h2, h3⟩ := calcDiagonal_ok (sq := Real.sqrt) hr g m N M st d hd hv (fun x hx => (bq x hx).1) (fun x hx => (bs x hx).1)
    refine ⟨g, vs, by simp [Rounded.genOps, h1, Except.map], h2, fun k v hk => ?_, hd, hc⟩
    have hlt := (List.getElem?_eq_some_iff.mp hk).1
    rw [h2] at hlt
    obtain ⟨x, x0, x1, x2⟩ := h3 k hlt
    rw [hk] at x1
    have x1 := Option.some.inj x1
    obtain ⟨l, hn1, hn2, hn3⟩ := diagLength_valid m _ _ d hv.1 hv.2.1 hv.2.2.1 hv.2.2.2
    have hent : diagEntries m st.q.length st.s.length d = l + 1 - m := by rw [diagEntries, hn2]
    have hnn := Eucl.sqd_nonneg m (seqOf st.s) (seqOf st.q) ((-d).toNat + k) (d.toNat + k)
    refine ⟨√(sqd m (seqOf st.s) (seqOf st.q) ((-d).toNat + k) (d.toNat + k)), by simp only [GenKind.dist, sqd_win], .inr ⟨_, x1,
      hr.nonneg (Real.sqrt_nonneg x), ?_⟩⟩
    refine rootErr_le hu (sqrt_close hr x _ _ x0 hnn x2) (le_trans ?_ (le_max_right _ _)) (sqrt_sqd_le m _ _ _ _ L hL bs bq (by omega) (by omega))
    have b1 := sqd_bound (rnd := rnd) (k + m) st.s st.q (-d).toNat d.toNat L bs bq (by omega) (by omega)
    have b2 := sqd_bound (rnd := rnd) k st.s st.q (-d).toNat d.toNat L bs bq (by omega) (by omega)
    have c1 : ((k + m : Nat) : ℝ) ≤ n := by exact_mod_cast (by omega : k + m ≤ n)
    have c2 : ((k : Nat) : ℝ) ≤ n := by exact_mod_cast (by omega : k ≤ n)
    refine roundErr_mono hu hr.η_nonneg (by omega) (by omega) (add_nonneg (Eucl.sqd_nonneg _ _ _ _ _) (Eucl.sqd_nonneg _ _ _ _ _)) ?_
    have c3 : ((k + m : Nat) : ℝ) * (4 * L ^ 2) ≤ n * (4 * L ^ 2) := mul_le_mul_of_nonneg_right c1 (by positivity)
    have c4 : (k : ℝ) * (4 * L ^ 2) ≤ n * (4 * L ^ 2) := mul_le_mul_of_nonneg_right c2 (by positivity)
    linarith

end Rounded

namespace RoundedZ
variable {rnd : ℝ → ℝ} {u η : ℝ}

/-- Invariant of the z-normalised generator. -/
def Holds (rnd : ℝ → ℝ) (stat : Stat ℝ) (u η : ℝ) (m : Nat) (noise L E : ℝ) (N : Nat) (M : Option Nat) (z : Gen ℝ) (st : GSt ℝ) : Prop :=
  Base rnd stat z m noise N M st.s st.q ∧
    Rounded.Cache (fun v w x => |v - pairSum (· * ·) w x| ≤ E) (fun i v w x => |v - pairSum (· * ·) w x| ≤ dotColumnErr u η m L E i)
      z.core m N st.s st.q st.last

/-- Calls on data within bounds, all windows clearly flat or clearly not flat. -/
def CallOk (m : Nat) (L τ φ : ℝ) (n : Nat) (M : Option Nat) (st : GSt ℝ) (op : GOp ℝ) : Prop :=
  st.Valid m M op ∧ st.Safe op ∧ (∀ x ∈ st.s, |x| ≤ L) ∧ (∀ x ∈ st.q, |x| ≤ L) ∧ st.q.length ≤ n ∧
    (∀ j, j + m ≤ st.s.length → Clear τ φ (std m (seqOf st.s) j)) ∧ ∀ i, i + m ≤ st.q.length → Clear τ φ (std m (seqOf st.q) i)

theorem winServes (hr : IsRounding rnd u η) (stat : Stat ℝ) (conv : List (Fl ℝ) → List (Fl ℝ) → Except PyErr (List (Fl ℝ))) (mem : Mem ℝ)
    (hmem : mem.Ok) (m N : Nat) (M : Option Nat) (n : Nat) (L eμ eσ E τ φ noise : ℝ) (hL : 0 ≤ L) (hE : 0 ≤ E) (hstat : StatWithin m L eμ eσ stat)
    (hconv : ConvWithin m L E conv) (hD : devErr u η L eσ < τ ^ 2) (hτ : 1 / 10 ^ 6 < τ) (hτ' : rnd (1 / 10 ^ 6) + eσ < τ)
    (hφ : φ ≤ 1 / 10 ^ 6) (hφ' : φ + eσ ≤ rnd (1 / 10 ^ 6)) (scale : ℚ) :
    WinServes (RoundedZ.genOps rnd stat conv mem.fl Real.sqrt) m N M
      (fun w x v => Within (rootErr u η (znormSqErr u η (rnd (1 / 10 ^ 12)) m L eμ eσ τ noise E n) (2 * √m)) 0 ((GenKind.znorm noise scale).dist m w x) v)
      (fun w x v => Within (rootErr u η (znormSqErr u η (rnd (1 / 10 ^ 12)) m L eμ eσ τ noise E n) (2 * √m)) 0 ((GenKind.znorm noise scale).dist m w x) v)
      (CallOk m L τ φ n M) (Holds rnd stat u η m noise L E N M) := by
  have hu := hr.u_nonneg
  refine ⟨?_, ?_⟩
  · rintro g st c ⟨hd, hc⟩ ⟨hv, hsafe, bs, bq, hN, cs, cq⟩
    have hm := hd.data.m_pos
    obtain ⟨g', vs, h1, h2, h3, h4, h5⟩ := calcColumn_ok (sq := Real.sqrt) hmem g m noise N M st c id id (fun _ => rfl) hd
      (P := fun n v w x => |v - pairSum (· * ·) w x| ≤ dotColumnErr u η m L E n) hc hv hsafe
      (hconv.steps hr hm hE st.s st.q (by have := hv.1; omega) hv.2 (fun y hy => (List.mem_append.1 hy).elim (bs y) (bq y)))
    refine ⟨g', vs, h1, h4, fun i v hi => ?_, h2, ?_⟩
    · have hlt := (List.getElem?_eq_some_iff.mp hi).1
      have hiq : i + m ≤ st.q.length := by omega
      obtain ⟨x, e, e1⟩ := h5 i hiq
      rw [hi] at e
      have e := Option.some.inj e
      rw [pairSum_windows _ m _ _ i c hv.1 hiq] at e1
      have e3 := e1.trans (dotColumnErr_mono hr m hL hE (by simp only [id]; omega : id i ≤ n))
      obtain ⟨y, y1, y2, y3⟩ := value_close hr hm hstat (noise := noise) hD hτ hτ' hφ hφ' _ _ i c hv.1 hiq bs bq (cs c hv.1) (cq i hiq) x e3
      refine ⟨zdist m noise (seqOf st.s) (seqOf st.q) i c, by simp only [GenKind.dist, zdist_win], .inr ⟨y, by rw [e, y1], y2, ?_⟩⟩
      exact rootErr_le hu y3 (znormErr_mono hr m hD le_rfl (le_max_left _ _)) (zdist_le_two_sqrt m hm noise _ _ _ _)
    · simpa [GSt.step] using h3
  · rintro g st d ⟨hd, hc⟩ ⟨hv, hsafe, bs, bq, hN, cs, cq⟩
    have hm := hd.data.m_pos
    obtain ⟨l, hn, hmn, hent, h⟩ := RoundedZ.calcDiagonal_values (sq := Real.sqrt) hr.idem g m noise N M st d hd hv
    obtain ⟨v1, v2, v3, v4⟩ := hv
    obtain ⟨vs, h1, h2⟩ : ∃ vs, calcDiagonal rnd Real.sqrt g d = .ok vs ∧ vs = _ := ⟨_, h, rfl⟩
    refine ⟨g, vs, by simp [RoundedZ.genOps, h1, Except.map], by rw [h2]; simp, fun k v hk => ?_, hd, hc⟩
    have hlt := (List.getElem?_eq_some_iff.mp hk).1
    rw [h2, List.length_map, List.length_range] at hlt
    rw [h2, List.getElem?_map, List.getElem?_range hlt, Option.map_some, diagValue_eq] at hk
    have hk := Option.some.inj hk
    have hq : (-d).toNat + l ≤ st.q.length := by omega
    have hs : d.toNat + l ≤ st.s.length := by omega
    obtain ⟨a1, a2⟩ := RoundedZ.pre_close hr _ _ (-d).toNat d.toNat l L hq hs bs bq (k + m) (by omega)
    obtain ⟨b1, b2⟩ := RoundedZ.pre_close hr _ _ (-d).toNat d.toNat l L hq hs bs bq k (by omega)
    have hc := Close.roundSub hr (a2.sub (b2.mono hr.u_nonneg hr.η_nonneg (k' := k + m + 1) (by omega) le_rfl le_rfl)) a1 b1
    have hsum : (∑ x ∈ Finset.range (k + m), seqOf st.s (d.toNat + x) * seqOf st.q ((-d).toNat + x)) -
        ∑ x ∈ Finset.range k, seqOf st.s (d.toNat + x) * seqOf st.q ((-d).toNat + x) =
        ∑ x ∈ Finset.range m, seqOf st.s (d.toNat + k + x) * seqOf st.q ((-d).toNat + k + x) := by
      rw [Finset.sum_range_add, add_sub_cancel_left]
      exact Finset.sum_congr rfl fun x _ => by rw [Nat.add_assoc, Nat.add_assoc]
    rw [hsum] at hc
    have herr := hc.err
    rw [show ((k + m : Nat) : ℝ) * L ^ 2 + (k : ℝ) * L ^ 2 = ((k + m + k : Nat) : ℝ) * L ^ 2 by push_cast; ring] at herr
    have c1 : ((k + m + k : Nat) : ℝ) ≤ 2 * n := by exact_mod_cast (by omega : k + m + k ≤ 2 * n)
    have herr2 := herr.trans (roundErr_mono hu hr.η_nonneg (by omega : k + m + 2 ≤ n + 2) (by omega : k + m + k ≤ 2 * n) (by positivity)
      (mul_le_mul_of_nonneg_right c1 (sq_nonneg L)))
    obtain ⟨y, y1, y2, y3⟩ := value_close hr hm hstat (noise := noise) hD hτ hτ' hφ hφ' _ _ ((-d).toNat + k) (d.toNat + k) (by omega) (by omega)
      bs bq (cs _ (by omega)) (cq _ (by omega)) _ herr2
    refine ⟨zdist m noise (seqOf st.s) (seqOf st.q) ((-d).toNat + k) (d.toNat + k), by simp only [GenKind.dist, zdist_win],
      .inr ⟨y, by rw [← hk, y1], y2, ?_⟩⟩
    exact rootErr_le hu y3 (znormErr_mono hr m hD le_rfl (le_max_right _ _)) (zdist_le_two_sqrt m hm noise _ _ _ _)

end RoundedZ
end Verif
