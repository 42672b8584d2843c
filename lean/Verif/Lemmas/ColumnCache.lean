import Verif.Model.ColumnCache
import Verif.Lemmas.RBGood
import Verif.Lemmas.FloatArith
import Verif.Spec.Gen
import Verif.Model.Util

/-! Refinement of the data windows and the column cache shared by the distance generators. -/

namespace Verif
open Spec
variable {K : Type} [Field K] [LinearOrder K]

theorem RB.mkEmpty_good_scale {α : Type} (scale : ℚ) (h1 : 1 ≤ scale) (h2 : scale ≤ 2) (lead : List Nat) (n : Nat)
    (junk : List α) (hn : 0 < n) (hj : junk.length = capacity scale n) : (mkEmpty lead n junk).Good n := by
  have := capacity_ge scale n h1
  have := capacity_le_two_mul scale n h2
  exact ⟨mkEmpty_wf lead n junk hn (by omega), rfl, by simp only [mkEmpty]; omega⟩

/-- Data part of the invariant: the buffers hold the two windows. -/
structure ColCache.Data (g : ColCache K) (m N : Nat) (M : Option Nat) (s q : List K) : Prop where
  m_eq : g.m = m
  m_pos : 0 < m
  m_le : m ≤ N
  series : g.series.Good N
  s_eq : g.s = s.map .fin
  query : match M with
    | none => g.query = none ∧ q = s
    | some M => ∃ rb, g.query = some rb ∧ rb.Good M ∧ rb.items = q.map .fin

theorem ColCache.Data.q_eq {g : ColCache K} {m N : Nat} {M : Option Nat} {s q : List K} (h : g.Data m N M s q) :
    g.q = q.map .fin := by
  have := h.query
  cases M with
  | none => obtain ⟨h1, h2⟩ := this; rw [ColCache.q, h1, h2]; exact h.s_eq
  | some M => obtain ⟨rb, h1, -, h2⟩ := this; rw [ColCache.q, h1]; exact h2

/-- Cache part of the invariant. `F`: contribution of a pair of points, `C`: post-processing of a fully calculated value,
`P v d`: how a cached value `v` relates to the true `d`. -/
structure ColCache.Cache (F : K → K → K) (C : K → K) (P : K → K → Prop) (g : ColCache K) (m N : Nat) (s q : List K)
    (last : Option (Int × Bool)) : Prop where
  row : ∀ fr, g.firstRow = some fr → fr.Good (N + 1 - m) ∧ m ≤ q.length ∧ ∃ s0 ds : List K, s = lastN N (s0 ++ ds) ∧
    ds.length = g.backlog ∧ fr.items = (windows m s0).map fun w => .fin (C (pairSum F w (q.take m)))
  idx : match last with
    | none => g.prevIdx = none
    | some (t, e) => ∃ p, g.prevIdx = some p ∧ p ≤ t ∧ (e = true → p = t) ∧ g.prev.length = q.length + 1 - m ∧ m ≤ q.length ∧
        t + m ≤ s.length ∧ ∀ t' : Nat, t = t' → ∀ i, i + m ≤ q.length →
          ∃ v, g.prev[i]? = some (.fin v) ∧ P v (pairSum F ((s.drop t').take m) ((q.drop i).take m))

/-- `full` calculates one value per window. -/
def FullSpec (F : K → K → K) (C : K → K) (full : List (Fl K) → List (Fl K) → Except PyErr (List (Fl K))) : Prop :=
  ∀ x w : List K, 0 < w.length → w.length ≤ x.length →
    full (x.map .fin) (w.map .fin) = .ok ((windows w.length x).map fun win => .fin (C (pairSum F win w)))

theorem lastN_eq_drop {α : Type} (n : Nat) (l : List α) : lastN n l = l.drop (l.length - n) := rfl

theorem pySlice_window {α : Type} (l : List α) (c m : Nat) : pySlice l (c : Int) ((c : Int) + (m : Int)) = (l.drop c).take m :=
  pySlice_nat_add l c m

theorem pyGet_at {α : Type} (l : List α) (i : Nat) (x : α) (h : l[i]? = some x) : pyGet l (i : Int) = .ok x := by
  have h1 : ¬ ((i : Int) < 0) := by omega
  simp only [pyGet, if_neg h1, Int.toNat_natCast, h]

variable {F : K → K → K} {C : K → K} {P : K → K → Prop}
  {full : List (Fl K) → List (Fl K) → Except PyErr (List (Fl K))} {term : Fl K → Fl K → Fl K} {mem : Nat → List (Fl K)}

theorem ColCache.refreshFirstRow_ok (g : ColCache K) (m N : Nat) (M : Option Nat) (s q : List K) (last : Option (Int × Bool))
    (hfull : FullSpec F C full) (hmem : ∀ n, (mem n).length = n)
    (hd : g.Data m N M s q) (hc : g.Cache F C P m N s q last) (hs : m ≤ s.length) (hq : m ≤ q.length) :
    ∃ g' fr, g.refreshFirstRow mem full = .ok (g', fr) ∧ g'.Data m N M s q ∧ g'.Cache F C P m N s q last ∧
      g'.prev = g.prev ∧ g'.s = g.s ∧ g'.q = g.q ∧ g'.m = g.m ∧
      fr.items = (windows m s).map fun w => .fin (C (pairSum F w (q.take m))) := by
  have hsN : s.length ≤ N := by
    have := hd.series.len
    have h2 := congrArg List.length hd.s_eq
    rw [ColCache.s, List.length_map] at h2; omega
  have hq0 : pySlice g.q 0 g.m = (q.take m).map .fin := by
    rw [hd.q_eq, hd.m_eq]
    have := pySlice_nat (q.map (Fl.fin (K := K))) 0 m
    rw [Nat.cast_zero] at this
    rw [this, List.drop_zero, List.map_take]
  have hql : (q.take m).length = m := by rw [List.length_take]; omega
  unfold ColCache.refreshFirstRow
  cases hfr : g.firstRow with
  | none =>
    have hfu : full g.s (pySlice g.q 0 g.m) = .ok ((windows m s).map fun w => .fin (C (pairSum F w (q.take m)))) := by
      rw [hq0, hd.s_eq, hfull s (q.take m) (by rw [hql]; exact hd.m_pos) (by omega), hql]
    have hn : ((g.series.vmax : Int) - g.m + 1).toNat = N + 1 - m := by
      rw [hd.series.vmax, hd.m_eq]; have := hd.m_le; omega
    obtain ⟨fr, h1, h2, h3, -⟩ := RB.init_shape_good [] ((windows m s).map fun w => Fl.fin (C (pairSum F w (q.take m)))) (N + 1 - m)
      (by have := hd.m_le; omega) false (mem (RB.capacity 2 (N + 1 - m))) (hmem _)
    have hit : fr.items = (windows m s).map fun w => Fl.fin (C (pairSum F w (q.take m))) := by
      rw [h3, lastN_of_le]; simp; omega
    simp only [hfu, hn, h1, bind, Except.bind, pure, Except.pure]
    refine ⟨_, fr, rfl, ⟨hd.m_eq, hd.m_pos, hd.m_le, hd.series, hd.s_eq, hd.query⟩, ⟨?_, hc.idx⟩, rfl, rfl, rfl, rfl, hit⟩
    rintro fr' h
    cases h
    exact ⟨h2, hq, s, [], by rw [List.append_nil, lastN_of_le _ _ hsN], rfl, hit⟩
  | some fr =>
    obtain ⟨r1, r2, s0, ds, r3, r4, r5⟩ := hc.row fr hfr
    simp only
    by_cases hb : g.backlog > 0
    · rw [if_pos hb]
      have hrest : pyFrom g.s (-((g.backlog : Int) + g.m - 1)) = (lastN (ds.length + m - 1) s).map .fin := by
        rw [hd.m_eq, hd.s_eq, show -((g.backlog : Int) + (m : Int) - 1) = -((ds.length + m - 1 : Nat) : Int) by
          have := hd.m_pos; omega, pyFrom_neg _ _ (by have := hd.m_pos; omega), lastN_map]
      have hfu : full (pyFrom g.s (-((g.backlog : Int) + g.m - 1))) (pySlice g.q 0 g.m) =
          .ok ((windows m (lastN (ds.length + m - 1) s)).map fun w => .fin (C (pairSum F w (q.take m)))) := by
        rw [hq0, hrest, hfull _ (q.take m) (by rw [hql]; exact hd.m_pos) (by rw [lastN_length, hql]; omega), hql]
      obtain ⟨fr', h1, h2, h3, -⟩ := r1.push ((windows m (lastN (ds.length + m - 1) s)).map fun w => Fl.fin (C (pairSum F w (q.take m))))
      have hit : fr'.items = (windows m s).map fun w => Fl.fin (C (pairSum F w (q.take m))) := by
        rw [h3, r5, ← List.map_append, lastN_map, r3, show N + 1 - m = N + 1 - m from rfl, windows_derived m N s0 ds hd.m_pos hd.m_le]
      simp only [hfu, h1, bind, Except.bind, pure, Except.pure]
      refine ⟨_, fr', rfl, ⟨hd.m_eq, hd.m_pos, hd.m_le, hd.series, hd.s_eq, hd.query⟩, ⟨?_, hc.idx⟩, rfl, rfl, rfl, rfl, hit⟩
      rintro fr'' h
      cases h
      exact ⟨h2, hq, s, [], by rw [List.append_nil, lastN_of_le _ _ hsN], rfl, hit⟩
    · rw [if_neg hb]
      refine ⟨g, fr, rfl, hd, hc, rfl, rfl, rfl, rfl, ?_⟩
      have hds : ds = [] := List.eq_nil_of_length_eq_zero (by omega)
      subst hds
      have h0 := windows_derived m N s0 [] hd.m_pos hd.m_le
      rw [r5]
      have hl : fr.items.length ≤ N + 1 - m := r1.len
      have hs0 : s0.length ≤ N := by
        rw [r5, List.length_map, windows_length] at hl; have := hd.m_le; omega
      rw [r3, List.append_nil, lastN_of_le _ _ hs0]

theorem pySet_zero {α : Type} (x y : α) (l : List α) : pySet (x :: l) 0 y = .ok (y :: l) := by
  simp [pySet]

/-- A column calculated from the cached one, whatever the cache holds: every value is derived from the cached value
diagonally before it. -/
theorem ColCache.column_cached (g : ColCache K) (m N : Nat) (M : Option Nat) (s q : List K) (last : Option (Int × Bool)) (c : Nat)
    (hfull : FullSpec F C full) (hmem : ∀ n, (mem n).length = n) (hterm : ∀ x y, term (.fin x) (.fin y) = .fin (F x y))
    (hd : g.Data m N M s q) (hc : g.Cache F C P m N s q last) (hs : c + 1 + m ≤ s.length) (hq : m ≤ q.length)
    (hp : g.prevIdx = some (c : Int)) (hlen : g.prev.length = q.length + 1 - m) (pv : Nat → K)
    (hpv : ∀ i, i + m ≤ q.length → g.prev[i]? = some (.fin (pv i))) :
    ∃ g' vs, g.column mem full term (c + 1 : Nat) = .ok (g', vs) ∧ g'.Data m N M s q ∧
      (∀ fr, g'.firstRow = some fr → fr.Good (N + 1 - m) ∧ m ≤ q.length ∧ ∃ s0 ds : List K, s = lastN N (s0 ++ ds) ∧
        ds.length = g'.backlog ∧ fr.items = (windows m s0).map fun w => .fin (C (pairSum F w (q.take m)))) ∧
      g'.prevIdx = some ((c + 1 : Nat) : Int) ∧ g'.prev = vs ∧ vs.length = q.length + 1 - m ∧
      vs[0]? = some (.fin (C (pairSum F ((s.drop (c + 1)).take m) (q.take m)))) ∧
      ∀ i, i + 1 + m ≤ q.length →
        vs[i + 1]? = some (.fin (pv i - F (seqOf s c) (seqOf q i) + F (seqOf s (c + m)) (seqOf q (i + m)))) := by
  unfold ColCache.column
  have hcond : ¬ (g.prevIdx ≠ some (((c + 1 : Nat) : Int) - 1) ∨ ((c + 1 : Nat) : Int) = 0) := by
    rw [hp]; push_cast; simp; omega
  rw [if_neg hcond]
  obtain ⟨g1, fr, h1, hd1, hc1, hprev, hs1, hq1, hm1, hfr⟩ :=
    g.refreshFirstRow_ok m N M s q last hfull hmem hd hc (by omega) hq
  rw [h1]
  have hx : pyGet g1.s (((c + 1 : Nat) : Int) - 1) = .ok (.fin (seqOf s c)) := by
    rw [show ((c + 1 : Nat) : Int) - 1 = (c : Int) by push_cast; omega, hs1, hd.s_eq]
    exact pyGet_at _ _ _ (by rw [List.getElem?_map, seqOf_getElem? s c (by omega)]; rfl)
  have hy : pyGet g1.s (((c + 1 : Nat) : Int) + g1.m - 1) = .ok (.fin (seqOf s (c + m))) := by
    rw [hm1, hd.m_eq, show ((c + 1 : Nat) : Int) + (m : Int) - 1 = ((c + m : Nat) : Int) by push_cast; omega, hs1, hd.s_eq]
    exact pyGet_at _ _ _ (by rw [List.getElem?_map, seqOf_getElem? s (c + m) (by omega)]; rfl)
  have ha : pyTo g1.prev (-1) = g.prev.take (q.length - m) := by
    rw [hprev, show (-1 : Int) = -((1 : Nat) : Int) by rfl, pyTo, pyIdx_neg _ _ (by omega), hlen]
    congr 1; omega
  have hq2 : pyTo g1.q (g1.q.length - g1.m) = (q.take (q.length - m)).map .fin := by
    rw [hm1, hd.m_eq, hq1, hd.q_eq, List.length_map, show ((q.length : Int) - (m : Int)) = ((q.length - m : Nat) : Int) by omega,
      pyTo_nat, List.map_take]
  have hq3 : pyFrom g1.q g1.m = (q.drop m).map .fin := by
    rw [hm1, hd.m_eq, hq1, hd.q_eq, pyFrom_nat, List.map_drop]
  have hfin : ∀ x (l : List K), (l.map Fl.fin).map (term (.fin x)) = l.map fun y => .fin (F x y) := by
    intro x l; rw [List.map_map]; exact List.map_congr_left fun y _ => hterm x y
  obtain ⟨p0, ps, hps⟩ : ∃ p0 ps, g.prev = p0 :: ps := by
    cases hg : g.prev with
    | nil => rw [hg] at hlen; simp at hlen; omega
    | cons a l => exact ⟨a, l, rfl⟩
  have hh : pyGet fr.items ((c + 1 : Nat) : Int) = .ok (.fin (C (pairSum F ((s.drop (c + 1)).take m) (q.take m)))) := by
    apply pyGet_at
    rw [hfr, List.getElem?_map, windows_getElem?, if_pos (by omega)]; rfl
  simp only [bind, Except.bind, pure, Except.pure, hx, hy, ha, hq2, hq3, hfin]
  rw [npZip_ok _ _ _ (by simp; omega)]
  simp only
  rw [npZip_ok _ _ _ (by simp; omega)]
  simp only
  set b := List.zipWith Fl.add (List.zipWith Fl.sub (g.prev.take (q.length - m)) ((q.take (q.length - m)).map fun y => Fl.fin (F (seqOf s c) y)))
    ((q.drop m).map fun y => Fl.fin (F (seqOf s (c + m)) y)) with hbdef
  have hbl : b.length = q.length - m := by rw [hbdef]; simp; omega
  have hone : pyIdx g1.prev.length 1 = 1 := by
    rw [show (1 : Int) = ((1 : Nat) : Int) by rfl, pyIdx_nat, hprev]; omega
  rw [hone, assignSlice_ok _ _ _ _ (by rw [hbl, hprev]; omega) (by rw [hprev]; omega), hprev, hps]
  simp only [List.take_succ_cons, List.take_zero, List.length_cons, List.drop_length, List.append_nil, List.cons_append, List.nil_append, hh]
  rw [show List.drop (ps.length + 1) (p0 :: ps) = [] by simp, List.append_nil, pySet_zero]
  refine ⟨_, _, rfl, ⟨hd1.m_eq, hd1.m_pos, hd1.m_le, hd1.series, hd1.s_eq, hd1.query⟩, hc1.row, rfl, rfl, by simp [hbl]; omega, rfl, ?_⟩
  intro i hi
  rw [List.getElem?_cons_succ, hbdef, List.getElem?_zipWith, List.getElem?_zipWith, List.getElem?_take, if_pos (by omega), hpv i (by omega),
    List.getElem?_map, List.getElem?_take, if_pos (by omega), seqOf_getElem? q i (by omega), List.getElem?_map, List.getElem?_drop,
    seqOf_getElem? q (m + i) (by omega), Nat.add_comm m i]
  simp

/-- One column request: succeeds, and every value relates to the true one by `P`. -/
theorem ColCache.column_ok (g : ColCache K) (m N : Nat) (M : Option Nat) (s q : List K) (last : Option (Int × Bool)) (c : Nat)
    (hfull : FullSpec F C full) (hmem : ∀ n, (mem n).length = n) (hterm : ∀ x y, term (.fin x) (.fin y) = .fin (F x y))
    (hF : ∀ a b, F a b = F b a) (hP : ∀ v d a b, P v d → P (v - a + b) (d - a + b))
    (hd : g.Data m N M s q) (hc : g.Cache F C P m N s q last) (hs : c + m ≤ s.length) (hq : m ≤ q.length)
    (hsafe : ∀ t e, last = some (t, e) → e = true ∨ t < c)
    (hC : ∀ i j, i + m ≤ q.length → j + m ≤ s.length →
      P (C (pairSum F ((s.drop j).take m) ((q.drop i).take m))) (pairSum F ((s.drop j).take m) ((q.drop i).take m))) :
    ∃ g' vs, g.column mem full term c = .ok (g', vs) ∧ g'.Data m N M s q ∧ g'.Cache F C P m N s q (some ((c : Int), true)) ∧
      g'.prev = vs ∧ vs.length = q.length + 1 - m ∧
      ∀ i, i + m ≤ q.length → ∃ v, vs[i]? = some (.fin v) ∧ P v (pairSum F ((s.drop c).take m) ((q.drop i).take m)) := by
  unfold ColCache.column
  by_cases hcond : g.prevIdx ≠ some ((c : Int) - 1) ∨ (c : Int) = 0
  · rw [if_pos hcond]
    have hw : pySlice g.s c (c + g.m) = ((s.drop c).take m).map .fin := by
      rw [hd.m_eq, hd.s_eq, pySlice_window, ← List.map_drop, ← List.map_take]
    have hwl : ((s.drop c).take m).length = m := by rw [List.length_take, List.length_drop]; omega
    have hfu := hfull q ((s.drop c).take m) (by rw [hwl]; exact hd.m_pos) (by omega)
    rw [hwl] at hfu
    rw [hw, hd.q_eq, hfu]
    simp only [bind, Except.bind, pure, Except.pure]
    have hval : ∀ i, i + m ≤ q.length → ∃ v, ((windows m q).map fun win => (Fl.fin (C (pairSum F win ((s.drop c).take m))) : Fl K))[i]? =
        some (.fin v) ∧ P v (pairSum F ((s.drop c).take m) ((q.drop i).take m)) := by
      intro i hi
      refine ⟨C (pairSum F ((s.drop c).take m) ((q.drop i).take m)), ?_, hC i c hi hs⟩
      rw [List.getElem?_map, windows_getElem?, if_pos (by omega), Option.map_some, pairSum_comm F hF]
    refine ⟨_, _, rfl, ⟨hd.m_eq, hd.m_pos, hd.m_le, hd.series, hd.s_eq, hd.query⟩, ⟨hc.row, ?_⟩, rfl, by simp, hval⟩
    refine ⟨c, rfl, le_rfl, fun _ => rfl, by simp, hq, by exact_mod_cast hs, ?_⟩
    intro t' ht
    have : t' = c := by exact_mod_cast ht.symm
    subst this
    exact hval
  · obtain ⟨hp, hc0⟩ : g.prevIdx = some ((c : Int) - 1) ∧ (c : Int) ≠ 0 := by simpa using hcond
    obtain ⟨c, rfl⟩ : ∃ c', c = c' + 1 := ⟨c - 1, by omega⟩
    -- the cached column is the one directly before
    obtain ⟨hlen, hv⟩ : g.prev.length = q.length + 1 - m ∧ ∀ i, i + m ≤ q.length →
        ∃ v, g.prev[i]? = some (.fin v) ∧ P v (pairSum F ((s.drop c).take m) ((q.drop i).take m)) := by
      have hidx := hc.idx
      cases last with
      | none => simp only at hidx; rw [hidx] at hp; cases hp
      | some te =>
        obtain ⟨t, e⟩ := te
        obtain ⟨p, i1, i2, i3, i4, i5, i6, i7⟩ := hidx
        have hpc : p = c := by rw [i1] at hp; have := Option.some.inj hp; push_cast at this; omega
        have htc : t = c := by
          rcases hsafe t e rfl with h | h
          · rw [← i3 h, hpc]
          · push_cast at h; omega
        exact ⟨i4, i7 c htc⟩
    choose! pv hpv1 hpv2 using hv
    obtain ⟨g', vs, h1, h2, h3, h4, h5, h6, h7, h8⟩ := g.column_cached m N M s q last c hfull hmem hterm hd hc hs hq
      (by rw [hp]; push_cast; simp) hlen pv hpv1
    have hval : ∀ i, i + m ≤ q.length → ∃ v, vs[i]? = some (.fin v) ∧ P v (pairSum F ((s.drop (c + 1)).take m) ((q.drop i).take m)) := by
      intro i hi
      cases i with
      | zero =>
        refine ⟨_, h7, ?_⟩
        have := hC 0 (c + 1) (by omega) hs
        rw [List.drop_zero] at this ⊢
        exact this
      | succ i =>
        refine ⟨_, h8 i hi, ?_⟩
        rw [pairSum_windows F m s q (i + 1) (c + 1) hs (by omega), pair_step F m _ _ i c hd.m_pos, ← pairSum_windows F m s q i c (by omega) (by omega)]
        exact hP _ _ _ _ (hpv2 i (by omega))
    unfold ColCache.column at h1
    refine ⟨g', vs, h1, h2, ⟨h3, ?_⟩, h5, h6, hval⟩
    refine ⟨_, h4, le_rfl, fun _ => rfl, by rw [h5]; exact h6, hq, by exact_mod_cast hs, ?_⟩
    intro t' ht
    have : t' = c + 1 := by exact_mod_cast ht.symm
    subst this
    rw [h5]
    exact hval

omit [Field K] [LinearOrder K] in
/-- Data part of a series append. -/
theorem ColCache.pushSeries_data (g : ColCache K) (m N : Nat) (M : Option Nat) (s q v : List K) (hd : g.Data m N M s q) :
    ∃ rb, g.pushSeries (v.map .fin) =
        .ok ({ g with series := rb, backlog := g.backlog + v.length }, s.length + v.length - N, (v.length : Int) - (N - min N (s.length + v.length) : Nat)) ∧
      rb.Good N ∧ rb.items = (lastN N (s ++ v)).map .fin := by
  obtain ⟨rb, h1, h2, h3, -⟩ := hd.series.push (v.map .fin)
  have hs : g.series.items = s.map .fin := hd.s_eq
  have hit : rb.items = (lastN N (s ++ v)).map .fin := by rw [h3, hs, ← List.map_append, lastN_map]
  refine ⟨rb, ?_, h2, hit⟩
  unfold ColCache.pushSeries
  rw [h1]
  simp only [bind, Except.bind, pure, Except.pure]
  rw [h2.vmax, hit]
  simp only [List.length_map, hs, lastN_length, List.length_append]
  congr 4
  omega

omit [Field K] [LinearOrder K] in
theorem ColCache.finishSeries_data (g : ColCache K) (m N : Nat) (M : Option Nat) (s q v : List K) (hd : g.Data m N M s q)
    (rb : RB (Fl K)) (b dropped : Nat) (nd : Int) (hrb : rb.Good N) (hit : rb.items = (lastN N (s ++ v)).map .fin) :
    (ColCache.finishSeries { g with series := rb, backlog := b } dropped nd).Data m N M (lastN N (s ++ v))
      (match M with | none => lastN N (s ++ v) | some _ => q) := by
  have hq := hd.query
  cases M with
  | none =>
    obtain ⟨h1, -⟩ := hq
    simp only [finishSeries, h1]
    exact ⟨hd.m_eq, hd.m_pos, hd.m_le, hrb, hit, rfl, rfl⟩
  | some M =>
    obtain ⟨rq, h1, h2⟩ := hq
    simp only [finishSeries, h1]
    exact ⟨hd.m_eq, hd.m_pos, hd.m_le, hrb, hit, rq, rfl, h2⟩

theorem lastN_drop_take {α : Type} (N m t' k : Nat) (s v : List α) (hk : k = s.length + v.length - N) (h : t' + k + m ≤ s.length) :
    ((lastN N (s ++ v)).drop t').take m = (s.drop (t' + k)).take m := by
  unfold lastN
  rw [List.length_append, ← hk, List.drop_drop, Nat.add_comm k t', List.drop_append_of_le_length (by omega),
    List.take_append_of_le_length (by rw [List.length_drop]; omega)]

omit [LinearOrder K] in
/-- Cache part of a series append. -/
theorem ColCache.finishSeries_cache (g : ColCache K) (m N : Nat) (M : Option Nat) (st : GSt K) (v : List K)
    (hd : g.Data m N M st.s st.q) (hc : g.Cache F C P m N st.s st.q st.last) (hv : v.length ≠ 0) (rb : RB (Fl K)) :
    (ColCache.finishSeries { g with series := rb, backlog := g.backlog + v.length } (st.s.length + v.length - N)
        ((v.length : Int) - (N - min N (st.s.length + v.length) : Nat))).Cache F C P m N
      (st.step N M (.series v)).s (st.step N M (.series v)).q (st.step N M (.series v)).last := by
  have hq := hd.query
  have hsN : st.s.length ≤ N := by
    have := hd.series.len
    have h2 := congrArg List.length hd.s_eq
    rw [ColCache.s, List.length_map] at h2; omega
  have hrow : ∀ s0 ds : List K, st.s = lastN N (s0 ++ ds) → lastN N (st.s ++ v) = lastN N (s0 ++ (ds ++ v)) := by
    intro s0 ds h
    rw [h, lastN_lastN_append, List.append_assoc]
  simp only [GSt.step, if_neg hv]
  cases M with
  | none =>
    obtain ⟨h1, h2⟩ := hq
    simp only [finishSeries, h1]
    refine ⟨?_, rfl⟩
    intro fr hfr
    simp only at hfr
    by_cases h0 : st.s.length + v.length - N = 0
    · rw [if_neg (by omega)] at hfr
      obtain ⟨r1, r2, s0, ds, r3, r4, r5⟩ := hc.row fr hfr
      rw [h2] at r2 r5
      have hnew : lastN N (st.s ++ v) = st.s ++ v := lastN_of_le _ _ (by rw [List.length_append]; omega)
      refine ⟨r1, by rw [hnew, List.length_append]; omega, s0, ds ++ v, hrow s0 ds r3, by simp [r4], ?_⟩
      rw [r5, hnew, List.take_append_of_le_length r2]
    · rw [if_pos h0] at hfr; cases hfr
  | some M =>
    obtain ⟨rq, h1, h2⟩ := hq
    simp only [finishSeries, h1]
    refine ⟨?_, ?_⟩
    · intro fr hfr
      obtain ⟨r1, r2, s0, ds, r3, r4, r5⟩ := hc.row fr hfr
      exact ⟨r1, r2, s0, ds ++ v, hrow s0 ds r3, by simp [r4], r5⟩
    · have hidx := hc.idx
      cases hl : st.last with
      | none =>
        rw [hl] at hidx
        simp only at hidx
        simp [hidx]
      | some te =>
        obtain ⟨t, e⟩ := te
        rw [hl] at hidx
        obtain ⟨p, i1, i2, i3, i4, i5, i6, i7⟩ := hidx
        simp only [Option.map_some]
        refine ⟨p - max 0 ((v.length : Int) - (N - min N (st.s.length + v.length) : Nat)), ?_, ?_, ?_, i4, i5, ?_, ?_⟩
        · simp only [i1]
          split
          · rw [Option.map_some, max_eq_right (by omega)]
          · rw [max_eq_left (by omega), sub_zero]
        · omega
        · intro he
          simp only [Bool.and_eq_true, Bool.or_eq_true, decide_eq_true_eq] at he
          have := i3 he.1
          omega
        · rw [lastN_length, List.length_append]; omega
        · intro t' ht i hi
          obtain ⟨w, w1, w2⟩ := i7 (t' + (st.s.length + v.length - N)) (by push_cast; omega) i hi
          refine ⟨w, w1, ?_⟩
          rw [lastN_drop_take N m t' _ st.s v rfl (by omega)]
          exact w2

/-- A query append. -/
theorem ColCache.pushQuery_ok (g : ColCache K) (m N M : Nat) (st : GSt K) (v : List K) (hd : g.Data m N (some M) st.s st.q) (hv : v.length ≠ 0) :
    ∃ rq g', g.query = some rq ∧ g.pushQuery rq (v.map .fin) = .ok g' ∧ g'.Data m N (some M) st.s (lastN M (st.q ++ v)) ∧
      g'.series = g.series ∧
      (g.Cache F C P m N st.s st.q st.last → g'.Cache F C P m N st.s (lastN M (st.q ++ v)) none) := by
  obtain ⟨rq, h1, h2, h3⟩ := hd.query
  obtain ⟨rb, p1, p2, p3, -⟩ := h2.push (v.map .fin)
  have hit : rb.items = (lastN M (st.q ++ v)).map .fin := by rw [p3, h3, ← List.map_append, lastN_map]
  refine ⟨rq, { g with query := some rb, firstRow := if rq.items.length + (v.map Fl.fin).length - M ≠ 0 then none else g.firstRow, prevIdx := none }, h1,
    by unfold ColCache.pushQuery; rw [p1]; rfl, ⟨hd.m_eq, hd.m_pos, hd.m_le, hd.series, hd.s_eq, rb, rfl, p2, hit⟩, rfl, ?_⟩
  intro hc
  refine ⟨?_, rfl⟩
  intro fr hfr
  simp only [h3, List.length_map] at hfr
  by_cases h0 : st.q.length + v.length - M = 0
  · rw [if_neg (by omega)] at hfr
    obtain ⟨r1, r2, s0, ds, r3, r4, r5⟩ := hc.row fr hfr
    have hnew : lastN M (st.q ++ v) = st.q ++ v := lastN_of_le _ _ (by rw [List.length_append]; omega)
    refine ⟨r1, by rw [hnew, List.length_append]; omega, s0, ds, r3, r4, ?_⟩
    rw [r5, hnew, List.take_append_of_le_length r2]
  · rw [if_pos h0] at hfr; cases hfr

omit [LinearOrder K] in
/-- A column request never touches the data. -/
theorem ColCache.column_frame (g g' : ColCache K) (c : Int) (vs : List (Fl K)) (h : g.column mem full term c = .ok (g', vs)) :
    g'.series = g.series ∧ g'.query = g.query ∧ g'.m = g.m := by
  unfold ColCache.column at h
  split at h
  · simp only [bind, Except.bind, pure, Except.pure] at h
    split at h
    · cases h
    · cases h; exact ⟨rfl, rfl, rfl⟩
  · simp only [bind, Except.bind, pure, Except.pure] at h
    split at h
    · cases h
    · rename_i r hr
      have hfr : r.1.series = g.series ∧ r.1.query = g.query ∧ r.1.m = g.m := by
        unfold ColCache.refreshFirstRow at hr
        split at hr
        · simp only [bind, Except.bind, pure, Except.pure] at hr
          split at hr
          · cases hr
          · split at hr
            · cases hr
            · cases hr; exact ⟨rfl, rfl, rfl⟩
        · split at hr
          · simp only [bind, Except.bind, pure, Except.pure] at hr
            split at hr
            · cases hr
            · split at hr
              · cases hr
              · cases hr; exact ⟨rfl, rfl, rfl⟩
          · cases hr; exact ⟨rfl, rfl, rfl⟩
      repeat' (split at h; · cases h)
      cases h
      exact hfr

omit [Field K] [LinearOrder K] in
theorem ColCache.Data.frame {g g' : ColCache K} {m N : Nat} {M : Option Nat} {s q : List K} (hd : g.Data m N M s q)
    (h : g'.series = g.series ∧ g'.query = g.query ∧ g'.m = g.m) : g'.Data m N M s q := by
  obtain ⟨h1, h2, h3⟩ := h
  refine ⟨by rw [h3, hd.m_eq], hd.m_pos, hd.m_le, by rw [h1]; exact hd.series, by rw [ColCache.s, h1]; exact hd.s_eq, ?_⟩
  have := hd.query
  cases M with
  | none => exact ⟨by rw [h2]; exact this.1, this.2⟩
  | some M => obtain ⟨rb, a, b⟩ := this; exact ⟨rb, by rw [h2]; exact a, b⟩

/-- `diag_length` for a diagonal that exists. -/
theorem diagLength_valid (m nq ns : Nat) (d : Int) (v1 : d + m ≤ ns) (v2 : -d + m ≤ nq) (v3 : m ≤ ns) (v4 : m ≤ nq) :
    ∃ n : Nat, diagLength nq ns d = n ∧ n = min (nq - (-d).toNat) (ns - d.toNat) ∧ m ≤ n := by
  refine ⟨min (nq - (-d).toNat) (ns - d.toNat), ?_, rfl, by omega⟩
  unfold diagLength
  split <;> omega

theorem ColCache.diagPoints_ok (op : Fl K → Fl K → Fl K) (f : K → K → K) (hop : ∀ x y, op (.fin x) (.fin y) = .fin (f x y))
    (g : ColCache K) (m N : Nat) (M : Option Nat) (s q : List K) (hd : g.Data m N M s q) (d : Int) (n : Nat)
    (hn : n = min (q.length - (-d).toNat) (s.length - d.toNat)) :
    g.diagPoints op n d = .ok ((List.zipWith f ((q.drop (-d).toNat).take n) ((s.drop d.toNat).take n)).map .fin) := by
  unfold ColCache.diagPoints
  rw [hd.q_eq, hd.s_eq]
  split
  · obtain ⟨d, rfl⟩ : ∃ k : Nat, d = k := ⟨d.toNat, by omega⟩
    rw [pyTo_nat, pySlice_window, npZip_ok _ _ _ (by simp; omega), ← List.map_drop, ← List.map_take, ← List.map_take, zipWith_fin op f hop]
    simp
  · obtain ⟨d, rfl⟩ : ∃ k : Nat, d = -(k : Int) := ⟨(-d).toNat, by omega⟩
    rw [neg_neg, pyTo_nat, pySlice_window, npZip_ok _ _ _ (by simp; omega), ← List.map_drop, ← List.map_take, ← List.map_take,
      zipWith_fin op f hop]
    simp

theorem cumsum0_ok (l : List K) (n : Nat) (h : l.length = n) :
    cumsum0 (n : Int) (l.map Fl.fin) = .ok ((List.range (n + 1)).map fun k => .fin (l.take k).sum) := by
  subst h
  have hz : npZeros (K := K) ((l.length : Int) + 1) = .ok (List.replicate (l.length + 1) (.fin 0)) := by
    unfold npZeros
    rw [if_neg (by omega)]; rfl
  unfold cumsum0
  simp only [hz, bind, Except.bind, List.length_replicate]
  exact cumsum_fin l

end Verif
