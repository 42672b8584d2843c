import Verif.Lemmas.Valmod
import Verif.Model.Valmod
import Verif.Props.DistancedThreshold

/-!
# C58: the lower bounds of VALMOD
-/

namespace Verif
open Spec
namespace Valmod
open ZN
variable {noise : ℝ}

/-! ### General lemmas -/

theorem foldlM_range {σ : Type} (f : σ → Nat → Except PyErr σ) (Inv : Nat → σ → Prop) (n : Nat) (st : σ) (h0 : Inv 0 st)
    (hs : ∀ t st, t < n → Inv t st → ∃ st', f st t = .ok st' ∧ Inv (t + 1) st') : ∃ st', (List.range n).foldlM f st = .ok st' ∧ Inv n st' := by
  induction n with
  | zero => exact ⟨st, rfl, h0⟩
  | succ n ih =>
    obtain ⟨s1, h1, h2⟩ := ih fun t st ht => hs t st (by omega)
    obtain ⟨s2, h3, h4⟩ := hs n s1 (by omega) h2
    refine ⟨s2, ?_, h4⟩
    rw [List.range_succ, List.foldlM_append, h1]
    simp [bind, Except.bind, h3, pure, Except.pure]

theorem blank_at (d : List (Fl ℝ)) (c b q : Nat) (hq : q < d.length) :
    (blank d (c : Int) (b : Int))[q]? = if q + b < c ∨ c + b < q then d[q]? else some .pinf := by
  unfold blank
  rw [pyFill_getElem?]
  have h1 : pyIdx d.length (max 0 ((c : Int) - b)) = min (c - b) d.length := by unfold pyIdx; split <;> omega
  have h2 : pyIdx d.length ((c : Int) + b + 1) = min (c + b + 1) d.length := by unfold pyIdx; split <;> omega
  rw [h1, h2]
  by_cases h : q + b < c ∨ c + b < q
  · rw [if_neg (by omega), if_pos h]
  · rw [if_pos (by omega), if_neg h]

theorem blank_length (d : List (Fl ℝ)) (c b : Int) : (blank d c b).length = d.length := by simp [blank]

/-! ### The generator -/

/-- A generator for subsequences of length `m` of the series. -/
def GenOk (noise : ℝ) (z : ZN) (m : Nat) (x : List ℝ) : Prop :=
  z.Base m noise x.length none x x ∧ ∃ last, (∀ t e, last = some (t, e) → e = true) ∧ z.CacheOk m x.length ⟨x, x, last⟩

theorem prepare_gen (mem : Mem) (hmem : mem.Ok) (noise : ℝ) (m : Nat) (hm0 : 0 < m) (x : List ℝ) (hm : m ≤ x.length) :
    ∃ z, prepare mem noise m (x.map .fin) none = .ok z ∧ GenOk noise z m x := by
  obtain ⟨z, h1, h2, h3⟩ := prepare_ok mem hmem noise m hm0 x none hm (by simp)
  exact ⟨z, h1, h2, none, by simp, h3⟩

/-- Sum of products of two subsequences. -/
noncomputable def dotAt (x : List ℝ) (m q i : Nat) : ℝ := ∑ k ∈ Finset.range m, seqOf x (i + k) * seqOf x (q + k)

theorem column_gen (mem : Mem) (hmem : mem.Ok) (z : ZN) (m : Nat) (x : List ℝ) (h : GenOk noise z m x) (c : Nat) (hc : c + m ≤ x.length) :
    ∃ z', calcColumn mem.fl z (c : Int) = .ok (z', (List.range (x.length - m + 1)).map fun q => .fin (zdist m noise (seqOf x) (seqOf x) q c)) ∧
      GenOk noise z' m x ∧ z'.core.prev.length = x.length + 1 - m ∧ ∀ q, q + m ≤ x.length → z'.core.prev[q]? = some (.fin (dotAt x m q c)) := by
  obtain ⟨hb, last, hl, hk⟩ := h
  obtain ⟨z', h1, h2, h3⟩ := z.calcColumn_ok mem hmem m noise x.length none ⟨x, x, last⟩ c hb hk ⟨by exact_mod_cast hc, by simp; omega⟩
    (fun t e he => Or.inl (hl t e he))
  obtain ⟨p, -, -, -, h4, -, -, h5⟩ := h3.idx
  refine ⟨z', h1, ⟨h2, some ((c : Int), true), by simp, h3⟩, h4, fun q hq => ?_⟩
  obtain ⟨v, h6, h7⟩ := h5 c rfl q hq
  rw [h6, h7]
  exact congrArg _ (congrArg _ (pairSum_windows _ m x x q c hc hq))

/-! ### The lower bound of one pair -/

theorem const_of_std (l : Nat) (hl : 0 < l) (x : Nat → ℝ) (i : Nat) (h : std l x i = 0) (k : Nat) (hk : k < l) : x (i + k) = mean l x i := by
  have h1 := sum_centered l hl x i
  rw [h] at h1
  simp only [ne_eq, OfNat.ofNat_ne_zero, not_false_eq_true, zero_pow, mul_zero] at h1
  have h2 := (Finset.sum_eq_zero_iff_of_nonneg fun _ _ => sq_nonneg _).mp h1 k (Finset.mem_range.mpr hk)
  nlinarith [pow_eq_zero_iff (two_ne_zero) |>.mp h2]

/-- The base calculated for a pair: NaN if the row is constant. -/
noncomputable def baseOf (x : List ℝ) (l q i : Nat) : Fl ℝ :=
  if std l (seqOf x) q = 0 then .nan else .fin (boundBase l (seqOf x) (seqOf x) q i)

theorem baseEntry_ok (x : List ℝ) (l : Nat) (hl : 0 < l) (q i : Nat) (hi : std l (seqOf x) i ≠ 0) :
    baseEntry l (mean l (seqOf x) i) (std l (seqOf x) i) (.fin (dotAt x l q i)) (mean l (seqOf x) q) (std l (seqOf x) q) = baseOf x l q i := by
  have hl0 : (l : ℝ) ≠ 0 := by exact_mod_cast hl.ne'
  have hc := sum_cross l hl (seqOf x) (seqOf x) q i
  have hnum : dotAt x l q i / l - mean l (seqOf x) q * mean l (seqOf x) i =
      (∑ k ∈ Finset.range l, (seqOf x (i + k) - mean l (seqOf x) i) * (seqOf x (q + k) - mean l (seqOf x) q)) / l := by
    rw [hc]
    unfold dotAt
    field_simp
  unfold baseEntry baseOf
  by_cases hq : std l (seqOf x) q = 0
  · have h0 : ∑ k ∈ Finset.range l, (seqOf x (i + k) - mean l (seqOf x) i) * (seqOf x (q + k) - mean l (seqOf x) q) = 0 :=
      Finset.sum_eq_zero fun k hk => by rw [const_of_std l hl _ q hq k (Finset.mem_range.mp hk)]; ring
    rw [h0, zero_div] at hnum
    simp [Fl.div, hl0, Fl.sub, Fl.neg, Fl.add, ← sub_eq_add_neg, hnum, hq, Fl.infSign, clip01, Fl.square, Fl.mul, Fl.sqrtF]
  · have e : clip01 (Fl.div (Fl.sub (Fl.div (.fin (dotAt x l q i)) (.fin (l : ℝ))) (.fin (mean l (seqOf x) q * mean l (seqOf x) i)))
        (.fin (std l (seqOf x) q * std l (seqOf x) i))) = .fin (min (max (corr l (seqOf x) (seqOf x) q i) 0) 1) := by
      simp only [Fl.div, hl0, Fl.sub, Fl.neg, Fl.add, ← sub_eq_add_neg, hnum, mul_eq_zero, hq, hi, or_self, if_false, clip01]
      rfl
    have h1 : ¬ (l : ℝ) * (1 - (min (max (corr l (seqOf x) (seqOf x) q i) 0) 1) ^ 2) < 0 :=
      not_lt.mpr (mul_nonneg (Nat.cast_nonneg l) (by linarith [clip_sq (corr l (seqOf x) (seqOf x) q i)]))
    rw [e, if_neg hq]
    simp only [Fl.square, Fl.mul, Fl.sub, Fl.neg, Fl.add, ← sub_eq_add_neg, ← pow_two, Fl.sqrtF, if_neg h1]
    rfl

/-! ### Lists of entries -/

/-- What the list of column `i` built at length `l` contains, with the dot products now at length `m`. -/
structure ListAt (x : List ℝ) (l b : Nat) (size : Int) (m i : Nat) (es : List Entry) : Prop where
  flat : std l (seqOf x) i = 0 → es = []
  idx : ∀ e ∈ es, e.s = i ∧ e.q + l ≤ x.length
  near : ∀ e ∈ es, ¬ (e.q + b < i ∨ i + b < e.q) → e.base = .pinf
  base : ∀ e ∈ es, e.q + b < i ∨ i + b < e.q → e.base = baseOf x l e.q i
  dot : ∀ e ∈ es, e.q + b < i ∨ i + b < e.q → e.q + m ≤ x.length → e.dot = .fin (dotAt x m e.q i)
  rest : std l (seqOf x) i ≠ 0 → ∀ q, FarPair x.length l b q i → std l (seqOf x) q ≠ 0 → (∃ e ∈ es, e.q = q) ∨
    ∀ e ∈ es, e.base ≤ .fin (boundBase l (seqOf x) (seqOf x) q i)
  count : (es.length : Int) ≤ size
  all : (es.length : Int) < size ∨ (x.length : Int) + 1 - l ≤ size → std l (seqOf x) i ≠ 0 → ∀ q, FarPair x.length l b q i → std l (seqOf x) q ≠ 0 → ∃ e ∈ es, e.q = q

theorem bases_ok (x : List ℝ) (l : Nat) (hl : 0 < l) (z : ZN) (hz : z.Base l noise x.length none x x) (i : Nat)
    (hi : std l (seqOf x) i ≠ 0) (hlen : z.core.prev.length = x.length + 1 - l)
    (hprev : ∀ q, q + l ≤ x.length → z.core.prev[q]? = some (.fin (dotAt x l q i))) :
    bases z.core.m (mean l (seqOf x) i) (std l (seqOf x) i) z.core.prev z.sStats.mu.items z.sStats.std.items =
      .ok ((List.range (x.length + 1 - l)).map fun q => baseOf x l q i) := by
  obtain ⟨l1, l2, -⟩ := hz.sStats.len
  unfold bases
  rw [npZip_ok _ _ _ (by rw [l1, l2])]
  simp only [bind, Except.bind]
  rw [npZip_ok _ _ _ (by simp [l1, l2, hlen])]
  congr 1
  apply List.ext_getElem?
  intro q
  by_cases hq : q + l ≤ x.length
  · obtain ⟨s1, s2, -⟩ := hz.sStats.at q hq
    rw [List.getElem?_zipWith, hprev q hq, List.getElem?_zipWith, s1, s2, List.getElem?_map, List.getElem?_range (by omega), hz.data.m_eq]
    simp only [Option.map_some]
    exact congrArg some (baseEntry_ok x l hl q i hi)
  · rw [List.getElem?_eq_none (by simp [l1, l2, hlen]; omega), List.getElem?_eq_none (by simp; omega)]

theorem pyGet_last {α : Type} (c : List α) (h : c ≠ []) : pyGet c (-1) = .ok (c.getLast h) := by
  have h0 : 0 < c.length := List.length_pos_of_ne_nil h
  unfold pyGet
  have h1 : ¬ ((c.length : Int) + -1 < 0) := by omega
  simp only [show (-1 : Int) < 0 from by decide, if_true, if_neg h1]
  rw [show ((c.length : Int) + -1).toNat = c.length - 1 by omega, List.getLast_eq_getElem, List.getElem?_eq_getElem (by omega)]

/-- The chosen indices are a prefix of the sorted ones, at most as many as asked for; if they are fewer, or the cache is large enough, only indices with value infinity or
NaN are left out. -/
theorem closest_ok (argsort : List (Fl ℝ) → List Nat) (hsort : ∀ v, IsArgsort v (argsort v)) (size : Int) (hsize : 1 ≤ size) (base : List (Fl ℝ))
    (hne : 0 < base.length) : ∃ c r, closest argsort size base = .ok c ∧ argsort base = c ++ r ∧
      (c.length : Int) ≤ size ∧ ((c.length : Int) < size ∨ (base.length : Int) ≤ size → ∀ q ∈ r, base[q]? = some .pinf ∨ base[q]? = some .nan) := by
  obtain ⟨hp, hs⟩ := hsort base
  have hlen : (argsort base).length = base.length := by rw [hp.length_eq]; simp
  obtain ⟨S, rfl⟩ : ∃ S : Nat, size = S := ⟨size.toNat, by omega⟩
  have hc : pyTo (argsort base) (S : Int) ≠ [] := by
    rw [pyTo_nat]
    intro h
    have := congrArg List.length h
    rw [List.length_take, hlen, List.length_nil] at this
    omega
  have hsub : ∀ q ∈ argsort base, q < base.length := fun q hq => by simpa using hp.mem_iff.mp hq
  have hget : ∀ q ∈ argsort base, ∃ v, base[q]? = some v := fun q hq => ⟨_, List.getElem?_eq_getElem (hsub q hq)⟩
  have hmem : ∀ q ∈ pyTo (argsort base) (S : Int), q ∈ argsort base := fun q hq => by
    rw [pyTo_nat] at hq
    exact List.mem_of_mem_take hq
  obtain ⟨v, hv⟩ := hget _ (hmem _ (List.getLast_mem hc))
  unfold closest
  dsimp only
  rw [pyGet_last _ hc]
  simp only [bind, Except.bind]
  rw [pyGet_at _ _ _ hv]
  simp only
  unfold trim
  split
  · have hv' : v = .pinf := by
      rename_i h
      exact ((Fl.eqF_iff _ _).mp h).1
    have hmap : (pyTo (argsort base) (S : Int)).mapM (fun i : Nat => pyGet base (i : Int)) =
        .ok ((pyTo (argsort base) (S : Int)).map fun i => base.getD i .nan) := by
      rw [mapM_ok_map]
      intro i hi
      obtain ⟨w, hw⟩ := hget _ (hmem _ hi)
      rw [pyGet_at _ _ _ hw, List.getD_eq_getElem?_getD, hw]
      rfl
    simp only [hmap, bind, Except.bind]
    refine ⟨_, (argsort base).drop (searchsorted ((pyTo (argsort base) (S : Int)).map fun i => base.getD i .nan) .pinf), rfl, ?_, ?_, ?_⟩
    · rw [pyTo_nat, List.take_take, min_eq_left, List.take_append_drop]
      unfold searchsorted
      refine (List.takeWhile_sublist _).length_le.trans ?_
      simp
    · rw [pyTo_nat, List.length_take, List.length_take]
      omega
    · intro _ q hq
      -- the first index left out has a value that is not below infinity
      set vs := (argsort base).map fun i => base.getD i .nan with hvs
      have hcut : searchsorted ((pyTo (argsort base) (S : Int)).map fun i => base.getD i .nan) .pinf = searchsorted vs .pinf := by
        have hlast : Fl.pinf ∈ (pyTo (argsort base) (S : Int)).map fun i => base.getD i .nan := by
          refine List.mem_map.mpr ⟨_, List.getLast_mem hc, ?_⟩
          rw [List.getD_eq_getElem?_getD, hv, hv']
          rfl
        have happ : vs = ((pyTo (argsort base) (S : Int)).map fun i => base.getD i .nan) ++ ((argsort base).drop S).map fun i => base.getD i .nan := by
          rw [← List.map_append, pyTo_nat, List.take_append_drop]
        unfold searchsorted
        rw [happ, List.takeWhile_append, if_neg]
        intro h
        have he := (List.takeWhile_sublist _).eq_of_length h
        rw [← he] at hlast
        simpa using List.all_eq_true.mp List.all_takeWhile _ hlast
      rw [hcut] at hq
      have hdrop : vs.drop (searchsorted vs .pinf) = vs.dropWhile fun x => decide (x < .pinf) := by
        unfold searchsorted
        conv_lhs => rw [← List.takeWhile_append_dropWhile (p := fun x => decide (x < Fl.pinf)) (l := vs)]
        rw [List.takeWhile_append_dropWhile]
        conv_lhs => enter [2]; rw [← List.takeWhile_append_dropWhile (p := fun x => decide (x < Fl.pinf)) (l := vs)]
        rw [List.drop_left]
      have hsorted : vs.Pairwise (· ≤ ·) := by
        rw [hvs, List.pairwise_map]
        refine List.Pairwise.imp_of_mem ?_ hs
        intro a b ha hb hab
        obtain ⟨u, hu⟩ := hget a ha
        obtain ⟨w, hw⟩ := hget b hb
        rw [List.getD_eq_getElem?_getD, List.getD_eq_getElem?_getD, hu, hw]
        exact hab u w hu hw
      have hq' : base.getD q .nan ∈ vs.dropWhile fun x => decide (x < Fl.pinf) := by
        rw [← hdrop, hvs, ← List.map_drop]
        exact List.mem_map.mpr ⟨q, hq, rfl⟩
      obtain ⟨w, hw⟩ := hget q (List.mem_of_mem_drop hq)
      have hge : Fl.pinf ≤ w := by
        rw [List.getD_eq_getElem?_getD, hw] at hq'
        simp only [Option.getD_some] at hq'
        generalize hD : vs.dropWhile (fun x => decide (x < Fl.pinf)) = D at hq'
        cases D with
        | nil => simp at hq'
        | cons a as =>
          have ha : ¬ a < Fl.pinf := by
            have := List.head_dropWhile_not (p := fun x => decide (x < Fl.pinf)) (l := vs) (by rw [hD]; simp)
            simp only [hD, List.head_cons] at this
            simpa using this
          have hpw : (a :: as).Pairwise (· ≤ ·) := by
            rw [← hD]
            exact hsorted.sublist (List.dropWhile_sublist _)
          rcases List.mem_cons.mp hq' with rfl | h
          · exact not_lt.mp ha
          · exact le_trans (not_lt.mp ha) (List.rel_of_pairwise_cons hpw h)
      rw [hw]
      cases w with
      | pinf => left; rfl
      | nan => right; rfl
      | fin y => exact absurd hge (by simp)
      | ninf => exact absurd hge (by simp)
  · refine ⟨_, (argsort base).drop S, rfl, by rw [pyTo_nat, List.take_append_drop], by rw [pyTo_nat, List.length_take]; omega, fun hbig q hq => ?_⟩
    rw [pyTo_nat, List.length_take] at hbig
    rw [List.drop_eq_nil_of_le (by omega)] at hq
    simp at hq

theorem mapM_mem {α β : Type} (f : α → Except PyErr β) (g : α → β) (l : List α) (h : ∀ a ∈ l, f a = .ok (g a)) : l.mapM f = .ok (l.map g) := by
  rw [mapM_ok_map]
  exact h

theorem lbList_ok (argsort : List (Fl ℝ) → List Nat) (hsort : ∀ v, IsArgsort v (argsort v)) (size : Int) (hsize : 1 ≤ size) (x : List ℝ) (l b : Nat)
    (hl : 0 < l) (z : ZN) (hz : z.Base l noise x.length none x x) (i : Nat) (hi : i + l ≤ x.length) (hlen : z.core.prev.length = x.length + 1 - l)
    (hprev : ∀ q, q + l ≤ x.length → z.core.prev[q]? = some (.fin (dotAt x l q i))) :
    ∃ es, lbList argsort size b z i = .ok es ∧ ListAt x l b size l i es := by
  obtain ⟨s1, s2, -⟩ := hz.sStats.at i hi
  unfold lbList
  rw [pyGet_at _ _ _ s1, pyGet_at _ _ _ s2]
  simp only [bind, Except.bind]
  by_cases hstd : std l (seqOf x) i = 0
  · rw [if_pos hstd]
    exact ⟨[], rfl, fun _ => rfl, by simp, by simp, by simp, by simp, fun h => absurd hstd h, by simp; omega, fun _ h => absurd hstd h⟩
  · rw [if_neg hstd]
    unfold boundList
    rw [bases_ok x l hl z hz i hstd hlen hprev]
    simp only [bind, Except.bind]
    set base := blank ((List.range (x.length + 1 - l)).map fun q => baseOf x l q i) (i : Int) (b : Int) with hbase
    have hbl : base.length = x.length + 1 - l := by rw [hbase, blank_length]; simp
    have hat : ∀ q, q + l ≤ x.length → base[q]? = some (if q + b < i ∨ i + b < q then baseOf x l q i else .pinf) := by
      intro q hq
      rw [hbase, blank_at _ _ _ _ (by simp; omega), List.getElem?_map, List.getElem?_range (by omega)]
      split <;> rfl
    obtain ⟨c, r, hc, hcr, hcount, hbig⟩ := closest_ok argsort hsort size hsize base (by omega)
    obtain ⟨hp, hs⟩ := hsort base
    rw [hcr] at hp hs
    have hin : ∀ q ∈ c, q + l ≤ x.length := by
      intro q hq
      have := hp.mem_iff.mp (List.mem_append_left r hq)
      rw [List.mem_range, hbl] at this
      omega
    rw [hc]
    simp only
    rw [mapM_mem _ (fun q => ⟨q, i, if q + b < i ∨ i + b < q then baseOf x l q i else .pinf, .fin (dotAt x l q i)⟩) c (by
      intro q hq
      unfold mkEntry
      rw [pyGet_at _ _ _ (hat q (hin q hq)), pyGet_at _ _ _ (hprev q (hin q hq))]
      rfl)]
    have hrest : ∀ q, FarPair x.length l b q i → q ∈ c ∨ q ∈ r := by
      intro q hq
      have := hp.mem_iff.mpr (List.mem_range.mpr (show q < base.length by rw [hbl]; have := hq.1; omega))
      exact List.mem_append.mp this
    refine ⟨_, rfl, fun h => absurd h hstd, ?_, ?_, ?_, ?_, fun _ q hq hq0 => ?_, by simpa using hcount, fun hbig' _ q hq hq0 => ?_⟩
    · intro e he
      obtain ⟨q, hq, rfl⟩ := List.mem_map.mp he
      exact ⟨rfl, hin q hq⟩
    · intro e he h
      obtain ⟨q, hq, rfl⟩ := List.mem_map.mp he
      exact if_neg h
    · intro e he h
      obtain ⟨q, hq, rfl⟩ := List.mem_map.mp he
      exact if_pos h
    · intro e he _ _
      obtain ⟨q, hq, rfl⟩ := List.mem_map.mp he
      rfl
    · rcases hrest q hq with h | h
      · exact Or.inl ⟨_, List.mem_map.mpr ⟨q, h, rfl⟩, rfl⟩
      · right
        intro e he
        obtain ⟨q', hq', rfl⟩ := List.mem_map.mp he
        have := (List.pairwise_append.mp hs).2.2 q' hq' q h _ _ (hat q' (hin q' hq')) (hat q hq.1)
        rw [if_pos hq.2.2, show baseOf x l q i = _ from if_neg hq0] at this
        exact this
    · rcases hrest q hq with h | h
      · exact ⟨_, List.mem_map.mpr ⟨q, h, rfl⟩, rfl⟩
      · have := hbig (by rw [List.length_map] at hbig'; rw [hbl]; omega) q h
        rw [hat q hq.1, if_pos hq.2.2, baseOf, if_neg hq0] at this
        simp at this

/-! ### The best pair -/

/-- The best pair so far: it exists, and nothing in `P` is better. -/
structure BestOk (noise : ℝ) (x : List ℝ) (m b : Nat) (P : Nat → Nat → Prop) (best : Best) : Prop where
  hit : (best.dist = .pinf ∧ best.idx = none) ∨
    ∃ q i, FarPair x.length m b q i ∧ best.dist = .fin (zdist m noise (seqOf x) (seqOf x) q i) ∧ best.idx = some (q, i)
  low : ∀ q i, FarPair x.length m b q i → P q i → best.dist ≤ .fin (zdist m noise (seqOf x) (seqOf x) q i)

theorem BestOk.init (noise : ℝ) (x : List ℝ) (m b : Nat) : BestOk noise x m b (fun _ _ => False) ⟨.pinf, none⟩ := ⟨Or.inl ⟨rfl, rfl⟩, fun _ _ _ h => h.elim⟩

theorem BestOk.mono {x : List ℝ} {m b : Nat} {P Q : Nat → Nat → Prop} {best : Best} (h : BestOk noise x m b P best)
    (hPQ : ∀ q i, FarPair x.length m b q i → Q q i → best.dist ≤ .fin (zdist m noise (seqOf x) (seqOf x) q i) ∨ P q i) : BestOk noise x m b Q best :=
  ⟨h.hit, fun q i ha hq => (hPQ q i ha hq).elim id (h.low q i ha)⟩

theorem BestOk.improve {x : List ℝ} {m b : Nat} {P : Nat → Nat → Prop} {best : Best} (h : BestOk noise x m b P best) (c : Nat) (hc : c + m ≤ x.length) :
    ∃ best', best.improve (blank ((List.range (x.length - m + 1)).map fun q => .fin (zdist m noise (seqOf x) (seqOf x) q c)) (c : Int) (b : Int)) c = .ok best' ∧
      BestOk noise x m b (fun q i => P q i ∨ i = c) best' ∧ best'.dist ≤ best.dist := by
  set d := blank ((List.range (x.length - m + 1)).map fun q => Fl.fin (zdist m noise (seqOf x) (seqOf x) q c)) (c : Int) (b : Int) with hd
  have hlen : d.length = x.length - m + 1 := by rw [hd, blank_length]; simp
  have hat : ∀ q, q + m ≤ x.length → d[q]? = some (if q + b < c ∨ c + b < q then .fin (zdist m noise (seqOf x) (seqOf x) q c) else .pinf) := by
    intro q hq
    rw [hd, blank_at _ _ _ _ (by simp; omega), List.getElem?_map, List.getElem?_range (by omega)]
    split <;> rfl
  have hne : d ≠ [] := by
    intro h0
    rw [h0] at hlen
    simp at hlen
  have hnan : Fl.nan ∉ d := by
    intro h0
    obtain ⟨q, hq⟩ := List.mem_iff_getElem?.mp h0
    have hql : q < d.length := (List.getElem?_eq_some_iff.mp hq).1
    rw [hat q (by omega)] at hq
    split at hq <;> simp at hq
  obtain ⟨r, h1, h2, h3, -, h4⟩ := npArgmin_spec d hne
  have h5 := (h4 hnan).1
  have hr := hat r (by omega)
  rw [List.getElem?_eq_getElem h2, Option.some.injEq] at hr
  have hlow : ∀ q, FarPair x.length m b q c → d[r] ≤ .fin (zdist m noise (seqOf x) (seqOf x) q c) := by
    intro q hq
    have hql : q < d.length := by rw [hlen]; have := hq.1; omega
    have h6 := hat q hq.1
    rw [List.getElem?_eq_getElem hql, if_pos hq.2.2, Option.some.injEq] at h6
    rw [← h6]
    exact h5 q hql
  unfold Best.improve
  rw [h3]
  simp only [bind, Except.bind]
  by_cases hlt : (d[r]).ltF best.dist = true
  · rw [if_pos hlt, h1]
    have hlt' := ((Fl.ltF_iff _ _).mp hlt).1
    refine ⟨⟨d[r], some (r, c)⟩, rfl, ⟨Or.inr ?_, ?_⟩, hlt'.le⟩
    · by_cases hrc : r + b < c ∨ c + b < r
      · rw [if_pos hrc] at hr
        exact ⟨r, c, ⟨by omega, hc, hrc⟩, hr, rfl⟩
      · rw [if_neg hrc] at hr
        rw [hr] at hlt
        exfalso
        rcases h.hit with h6 | ⟨q, i, -, h6, -⟩
        · rw [h6.1] at hlt; simp [Fl.ltF] at hlt
        · rw [h6] at hlt; simp [Fl.ltF] at hlt
    · intro q i ha hP
      rcases hP with hP | rfl
      · exact hlt'.le.trans (h.low q i ha hP)
      · exact hlow q ha
  · rw [if_neg hlt]
    refine ⟨best, rfl, ⟨h.hit, ?_⟩, le_rfl⟩
    intro q i ha hP
    rcases hP with hP | rfl
    · exact h.low q i ha hP
    · have hnn : best.dist ≠ .nan := by
        rcases h.hit with h6 | ⟨q, i, -, h6, -⟩
        · rw [h6.1]; simp
        · rw [h6]; simp
      have := (Fl.ltF_false_iff _ _ hnn).mp (by simpa using hlt)
      exact this.trans (hlow q ha)

theorem BestOk.motif {x : List ℝ} {m b : Nat} {best : Best} (h : BestOk noise x m b (fun _ _ => True) best) : IsMotif noise x m b best.idx := by
  rcases h.hit with ⟨h1, h2⟩ | ⟨q, i, h1, h2, h3⟩
  · rw [h2]
    intro q i ha
    have := h.low q i ha trivial
    rw [h1] at this
    exact absurd (lt_of_le_of_lt this (Fl.fin_lt_pinf _)) (lt_irrefl _)
  · rw [h3]
    refine ⟨h1, fun q' i' ha => ?_⟩
    have := h.low q' i' ha trivial
    rw [h2] at this
    simpa using this

/-! ### The full calculation -/

/-- A list for each of the columns below `t`. -/
def ListsAt (x : List ℝ) (l b : Nat) (size : Int) (m t : Nat) (lists : List (List Entry)) : Prop :=
  ∀ i, i < t → ∃ es, lists[i]? = some es ∧ ListAt x l b size m i es

theorem full_ok (mem : Mem) (hmem : mem.Ok) (argsort : List (Fl ℝ) → List Nat) (hsort : ∀ v, IsArgsort v (argsort v)) (size : Int) (hsize : 1 ≤ size)
    (x : List ℝ) (l b : Nat) (hl : 0 < l) (hx : l ≤ x.length) (z : ZN) (hz : GenOk noise z l x) :
    ∃ f, full mem argsort size b z = .ok f ∧ ListsAt x l b size l (x.length + 1 - l) f.lists ∧ f.lists.length = x.length + 1 - l ∧
      BestOk noise x l b (fun _ _ => True) f.best := by
  unfold full
  rw [hz.1.sStats.len.1]
  obtain ⟨f, h1, -, h2, h3, h4⟩ := foldlM_range (Full.column mem argsort size b)
    (fun t (st : Full) => GenOk noise st.gen l x ∧ st.lists.length = t ∧ ListsAt x l b size l t st.lists ∧ BestOk noise x l b (fun _ i => i < t) st.best)
    (x.length + 1 - l) ⟨z, [], ⟨.pinf, none⟩⟩
    ⟨hz, rfl, fun i hi => by omega, (BestOk.init noise x l b).mono fun _ _ _ h => by omega⟩ (by
      intro t st ht ⟨g1, g2, g3, g4⟩
      obtain ⟨z', c1, c2, c3, c4⟩ := column_gen mem hmem st.gen l x g1 t (by omega)
      obtain ⟨best', b1, b2, -⟩ := g4.improve t (by omega)
      obtain ⟨es, e1, e2⟩ := lbList_ok argsort hsort size hsize x l b hl z' c2.1 t (by omega) c3 c4
      refine ⟨⟨z', st.lists ++ [es], best'⟩, ?_, c2, by simp [g2], ?_, b2.mono fun q i _ h => Or.inr (by omega)⟩
      · unfold Full.column
        rw [c1]
        simp only [bind, Except.bind]
        rw [b1]
        simp only
        rw [e1]
        rfl
      · intro i hi
        by_cases hit : i = t
        · subst hit
          exact ⟨es, by rw [List.getElem?_append_right (by omega)]; simp [g2], e2⟩
        · obtain ⟨es', f1, f2⟩ := g3 i (by omega)
          exact ⟨es', by rw [List.getElem?_append_left (by omega)]; exact f1, f2⟩)
  refine ⟨f, h1, h3, h2, h4.mono fun q i ha _ => Or.inr ?_⟩
  have := ha.2.1
  omega

end Valmod
end Verif
