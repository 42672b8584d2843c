import Verif.Model.RoundedEuclidean
import Verif.Props.Euclidean

/-! Refinement of the column cache with rounded arithmetic: what relates cached values to windows is kept by every call. -/

namespace Verif
open Spec
variable {K : Type} [Field K] [LinearOrder K]

namespace Rounded

/-- One value per window, related to the window and `x` by `R`. -/
def Row (R : K → List K → List K → Prop) (vs : List (Fl K)) (ws : List (List K)) (x : List K) : Prop :=
  List.Forall₂ (fun v w => ∃ y, v = .fin y ∧ R y w x) vs ws

/-- Cache part of the invariant. `R v w x`: `v` may be calculated in full for the windows `w` and `x`; `P i v w x`: `v` may be
cached in row `i` for the series window `w` and the query window `x`. -/
structure Cache (R : K → List K → List K → Prop) (P : Nat → K → List K → List K → Prop) (g : ColCache K) (m N : Nat) (s q : List K)
    (last : Option (Int × Bool)) : Prop where
  row : ∀ fr, g.firstRow = some fr → fr.Good (N + 1 - m) ∧ m ≤ q.length ∧ ∃ s0 ds : List K, s = lastN N (s0 ++ ds) ∧
    ds.length = g.backlog ∧ Row R fr.items (windows m s0) (q.take m)
  idx : match last with
    | none => g.prevIdx = none
    | some (t, e) => ∃ p, g.prevIdx = some p ∧ p ≤ t ∧ (e = true → p = t) ∧ g.prev.length = q.length + 1 - m ∧ m ≤ q.length ∧
        t + m ≤ s.length ∧ ∀ t' : Nat, t = t' → ∀ i, i + m ≤ q.length →
          ∃ v, g.prev[i]? = some (.fin v) ∧ P i v ((s.drop t').take m) ((q.drop i).take m)

/-- `full` calculates one value per window. -/
def FullRel (m : Nat) (R : K → List K → List K → Prop) (full : List (Fl K) → List (Fl K) → Except PyErr (List (Fl K))) (x w : List K) : Prop :=
  ∃ vs, full (x.map .fin) (w.map .fin) = .ok vs ∧ Row R vs (windows m x) w

theorem Row.lastN {R : K → List K → List K → Prop} {vs : List (Fl K)} {ws : List (List K)} {x : List K} (h : Row R vs ws x) (n : Nat) :
    Row R (lastN n vs) (Spec.lastN n ws) x := by
  unfold Spec.lastN
  rw [h.length_eq]
  exact List.forall₂_drop _ h

theorem Row.append {R : K → List K → List K → Prop} {vs vs' : List (Fl K)} {ws ws' : List (List K)} {x : List K} (h : Row R vs ws x)
    (h' : Row R vs' ws' x) : Row R (vs ++ vs') (ws ++ ws') x := List.rel_append h h'

variable {R : K → List K → List K → Prop} {P P' : Nat → K → List K → List K → Prop} {rnd : K → K}
  {full : List (Fl K) → List (Fl K) → Except PyErr (List (Fl K))} {term : Fl K → Fl K → Fl K} {mem : Nat → List (Fl K)}

theorem Cache.of_firstRow {g g' : ColCache K} {m N : Nat} {s q : List K} {last : Option (Int × Bool)} (hc : Cache R P g m N s q last)
    (h : ∀ fr, g'.firstRow = some fr → fr.Good (N + 1 - m) ∧ m ≤ q.length ∧ ∃ s0 ds : List K, s = Spec.lastN N (s0 ++ ds) ∧
      ds.length = g'.backlog ∧ Row R fr.items (windows m s0) (q.take m)) (h1 : g'.prevIdx = g.prevIdx) (h2 : g'.prev = g.prev) :
    Cache R P g' m N s q last := by
  refine ⟨h, ?_⟩
  have := hc.idx
  cases last with
  | none => simp only at this ⊢; rw [h1, this]
  | some te => simp only at this ⊢; rw [h1, h2]; exact this

theorem refreshFirstRow_ok (g : ColCache K) (m N : Nat) (M : Option Nat) (s q : List K) (last : Option (Int × Bool))
    (hmem : ∀ n, (mem n).length = n) (hd : g.Data m N M s q) (hc : Cache R P g m N s q last) (hs : m ≤ s.length) (hq : m ≤ q.length)
    (hfull : ∀ n, m ≤ n → FullRel m R full (Spec.lastN n s) (q.take m)) :
    ∃ g' fr, g.refreshFirstRow mem full = .ok (g', fr) ∧ g'.Data m N M s q ∧ Cache R P g' m N s q last ∧
      g'.prev = g.prev ∧ g'.s = g.s ∧ g'.q = g.q ∧ g'.m = g.m ∧ Row R fr.items (windows m s) (q.take m) := by
  have hsN : s.length ≤ N := by
    have := hd.series.len
    have h2 := congrArg List.length hd.s_eq
    rw [ColCache.s, List.length_map] at h2; omega
  have hq0 : pySlice g.q 0 g.m = (q.take m).map .fin := by
    rw [hd.q_eq, hd.m_eq]
    have := pySlice_nat (q.map (Fl.fin (K := K))) 0 m
    rw [Nat.cast_zero] at this
    rw [this, List.drop_zero, List.map_take]
  unfold ColCache.refreshFirstRow
  cases hfr : g.firstRow with
  | none =>
    obtain ⟨vs, hv1, hv2⟩ := hfull s.length hs
    rw [lastN_of_le _ _ le_rfl] at hv1 hv2
    have hfu : full g.s (pySlice g.q 0 g.m) = .ok vs := by rw [hq0, hd.s_eq, hv1]
    have hvl : vs.length = s.length + 1 - m := by rw [hv2.length_eq, windows_length]
    have hn : ((g.series.vmax : Int) - g.m + 1).toNat = N + 1 - m := by
      rw [hd.series.vmax, hd.m_eq]; have := hd.m_le; omega
    obtain ⟨fr, h1, h2, h3, -⟩ := RB.init_shape_good [] vs (N + 1 - m)
      (by have := hd.m_le; omega) false (mem (RB.capacity 2 (N + 1 - m))) (hmem _)
    have hit : fr.items = vs := by rw [h3, lastN_of_le]; omega
    simp only [hfu, hn, h1, bind, Except.bind, pure, Except.pure]
    refine ⟨_, fr, rfl, ⟨hd.m_eq, hd.m_pos, hd.m_le, hd.series, hd.s_eq, hd.query⟩, hc.of_firstRow ?_ rfl rfl, rfl, rfl, rfl, rfl, by rw [hit]; exact hv2⟩
    rintro fr' h
    cases h
    exact ⟨h2, hq, s, [], by rw [List.append_nil, lastN_of_le _ _ hsN], rfl, by rw [hit]; exact hv2⟩
  | some fr =>
    obtain ⟨r1, r2, s0, ds, r3, r4, r5⟩ := hc.row fr hfr
    simp only
    by_cases hb : g.backlog > 0
    · rw [if_pos hb]
      have hrest : pyFrom g.s (-((g.backlog : Int) + g.m - 1)) = (Spec.lastN (ds.length + m - 1) s).map .fin := by
        rw [hd.m_eq, hd.s_eq, show -((g.backlog : Int) + (m : Int) - 1) = -((ds.length + m - 1 : Nat) : Int) by
          have := hd.m_pos; omega, pyFrom_neg _ _ (by have := hd.m_pos; omega), lastN_map]
      obtain ⟨vs, hv1, hv2⟩ := hfull (ds.length + m - 1) (by omega)
      have hfu : full (pyFrom g.s (-((g.backlog : Int) + g.m - 1))) (pySlice g.q 0 g.m) = .ok vs := by
        rw [hq0, hrest, hv1]
      obtain ⟨fr', h1, h2, h3, -⟩ := r1.push vs
      have hit : Row R fr'.items (windows m s) (q.take m) := by
        have := (r5.append hv2).lastN (N + 1 - m)
        rw [h3]
        rw [show Spec.lastN (N + 1 - m) (windows m s0 ++ windows m (Spec.lastN (ds.length + m - 1) s)) = windows m s by
          rw [r3, windows_derived m N s0 ds hd.m_pos hd.m_le]] at this
        exact this
      simp only [hfu, h1, bind, Except.bind, pure, Except.pure]
      refine ⟨_, fr', rfl, ⟨hd.m_eq, hd.m_pos, hd.m_le, hd.series, hd.s_eq, hd.query⟩, hc.of_firstRow ?_ rfl rfl, rfl, rfl, rfl, rfl, hit⟩
      rintro fr'' h
      cases h
      exact ⟨h2, hq, s, [], by rw [List.append_nil, lastN_of_le _ _ hsN], rfl, hit⟩
    · rw [if_neg hb]
      refine ⟨g, fr, rfl, hd, hc, rfl, rfl, rfl, rfl, ?_⟩
      have hds : ds = [] := List.eq_nil_of_length_eq_zero (by omega)
      subst hds
      have hl : fr.items.length ≤ N + 1 - m := r1.len
      have hs0 : s0.length ≤ N := by
        rw [r5.length_eq, windows_length] at hl; have := hd.m_le; omega
      rw [r3, List.append_nil, lastN_of_le _ _ hs0]
      exact r5

/-- A column calculated from the cached one: every value is derived from the cached value diagonally before it. -/
theorem column_cached (g : ColCache K) (m N : Nat) (M : Option Nat) (s q : List K) (last : Option (Int × Bool)) (c : Nat) (F : K → K → K)
    (hmem : ∀ n, (mem n).length = n) (hterm : ∀ x y, term (.fin x) (.fin y) = .fin (F x y))
    (hd : g.Data m N M s q) (hc : Cache R P g m N s q last) (hs : c + 1 + m ≤ s.length) (hq : m ≤ q.length)
    (hfull : ∀ n, m ≤ n → FullRel m R full (Spec.lastN n s) (q.take m))
    (hp : g.prevIdx = some (c : Int)) (hlen : g.prev.length = q.length + 1 - m) (pv : Nat → K)
    (hpv : ∀ i, i + m ≤ q.length → g.prev[i]? = some (.fin (pv i))) :
    ∃ g' vs, column rnd mem full term g (c + 1 : Nat) = .ok (g', vs) ∧ g'.Data m N M s q ∧
      (∀ fr, g'.firstRow = some fr → fr.Good (N + 1 - m) ∧ m ≤ q.length ∧ ∃ s0 ds : List K, s = Spec.lastN N (s0 ++ ds) ∧
        ds.length = g'.backlog ∧ Row R fr.items (windows m s0) (q.take m)) ∧
      g'.prevIdx = some ((c + 1 : Nat) : Int) ∧ g'.prev = vs ∧ vs.length = q.length + 1 - m ∧
      (∃ h, vs[0]? = some (.fin h) ∧ R h ((s.drop (c + 1)).take m) (q.take m)) ∧
      ∀ i, i + 1 + m ≤ q.length →
        vs[i + 1]? = some (.fin (rnd (rnd (pv i - F (seqOf s c) (seqOf q i)) + F (seqOf s (c + m)) (seqOf q (i + m))))) := by
  unfold column
  have hcond : ¬ (g.prevIdx ≠ some (((c + 1 : Nat) : Int) - 1) ∨ ((c + 1 : Nat) : Int) = 0) := by
    rw [hp]; push_cast; simp; omega
  rw [if_neg hcond]
  obtain ⟨g1, fr, h1, hd1, hc1, hprev, hs1, hq1, hm1, hfr⟩ :=
    refreshFirstRow_ok (mem := mem) g m N M s q last hmem hd hc (by omega) hq hfull
  rw [h1]
  have hx : pyGet g1.s (((c + 1 : Nat) : Int) - 1) = .ok (.fin (seqOf s c)) := by
    rw [show ((c + 1 : Nat) : Int) - 1 = (c : Int) by push_cast; omega, hs1, hd.s_eq]
    exact pyGet_at _ _ _ (by rw [List.getElem?_map, seqOf_getElem? s c (by omega)]; rfl)
  have hy : pyGet g1.s (((c + 1 : Nat) : Int) + g1.m - 1) = .ok (.fin (seqOf s (c + m))) := by
    rw [hm1, hd.m_eq, show ((c + 1 : Nat) : Int) + (m : Int) - 1 = ((c + m : Nat) : Int) by push_cast; omega, hs1, hd.s_eq]
    exact pyGet_at _ _ _ (by rw [List.getElem?_map, seqOf_getElem? s (c + m) (by omega)]; rfl)
  have ha : pyTo g1.prev (-1) = g.prev.take (q.length - m) := by
    rw [hprev, show (-1 : Int) = -((1 : Nat) : Int) by rfl, pyTo, pyIdx_neg _ _ (by omega), hlen]
    congr 1; omega
  have hq2 : pyTo g1.q (g1.q.length - g1.m) = (q.take (q.length - m)).map .fin := by
    rw [hm1, hd.m_eq, hq1, hd.q_eq, List.length_map, show ((q.length : Int) - (m : Int)) = ((q.length - m : Nat) : Int) by omega,
      pyTo_nat, List.map_take]
  have hq3 : pyFrom g1.q g1.m = (q.drop m).map .fin := by
    rw [hm1, hd.m_eq, hq1, hd.q_eq, pyFrom_nat, List.map_drop]
  have hfin : ∀ x (l : List K), (l.map Fl.fin).map (term (.fin x)) = l.map fun y => .fin (F x y) := by
    intro x l; rw [List.map_map]; exact List.map_congr_left fun y _ => hterm x y
  obtain ⟨p0, ps, hps⟩ : ∃ p0 ps, g.prev = p0 :: ps := by
    cases hg : g.prev with
    | nil => rw [hg] at hlen; simp at hlen; omega
    | cons a l => exact ⟨a, l, rfl⟩
  obtain ⟨h, hh1, hh2⟩ : ∃ h, pyGet fr.items ((c + 1 : Nat) : Int) = .ok (.fin h) ∧ R h ((s.drop (c + 1)).take m) (q.take m) := by
    have hlt : c + 1 < fr.items.length := by rw [hfr.length_eq, windows_length]; omega
    have hlt2 : c + 1 < (windows m s).length := by rw [windows_length]; omega
    obtain ⟨y, y1, y2⟩ := hfr.get hlt hlt2
    have hw : (windows m s)[c + 1] = (s.drop (c + 1)).take m := by
      have := windows_getElem? m s (c + 1)
      rw [if_pos (by omega), List.getElem?_eq_getElem hlt2] at this
      exact Option.some.inj this
    refine ⟨y, pyGet_at _ _ _ ?_, ?_⟩
    · rw [List.getElem?_eq_getElem hlt]; exact congrArg some y1
    · have y2' : R y ((windows m s)[c + 1]) (q.take m) := y2
      rwa [hw] at y2'
  simp only [bind, Except.bind, pure, Except.pure, hx, hy, ha, hq2, hq3, hfin]
  rw [npZip_ok _ _ _ (by simp; omega)]
  simp only
  rw [npZip_ok _ _ _ (by simp; omega)]
  simp only
  set b := List.zipWith (add rnd) (List.zipWith (sub rnd) (g.prev.take (q.length - m)) ((q.take (q.length - m)).map fun y => Fl.fin (F (seqOf s c) y)))
    ((q.drop m).map fun y => Fl.fin (F (seqOf s (c + m)) y)) with hbdef
  have hbl : b.length = q.length - m := by rw [hbdef]; simp; omega
  have hone : pyIdx g1.prev.length 1 = 1 := by
    rw [show (1 : Int) = ((1 : Nat) : Int) by rfl, pyIdx_nat, hprev]; omega
  rw [hone, assignSlice_ok _ _ _ _ (by rw [hbl, hprev]; omega) (by rw [hprev]; omega), hprev, hps]
  simp only [List.take_succ_cons, List.take_zero, List.length_cons, List.drop_length, List.append_nil, List.cons_append, List.nil_append, hh1]
  rw [show List.drop (ps.length + 1) (p0 :: ps) = [] by simp, List.append_nil, pySet_zero]
  refine ⟨_, _, rfl, ⟨hd1.m_eq, hd1.m_pos, hd1.m_le, hd1.series, hd1.s_eq, hd1.query⟩, hc1.row, rfl, rfl, by simp [hbl]; omega, ⟨h, rfl, hh2⟩, ?_⟩
  intro i hi
  rw [List.getElem?_cons_succ, hbdef, List.getElem?_zipWith, List.getElem?_zipWith, List.getElem?_take, if_pos (by omega), hpv i (by omega),
    List.getElem?_map, List.getElem?_take, if_pos (by omega), seqOf_getElem? q i (by omega), List.getElem?_map, List.getElem?_drop,
    seqOf_getElem? q (m + i) (by omega), Nat.add_comm m i]
  simp [add, sub, fl]

/-- One column request: succeeds, and every value relates to its windows by `P'`. -/
theorem column_ok (g : ColCache K) (m N : Nat) (M : Option Nat) (s q : List K) (last : Option (Int × Bool)) (c : Nat) (F : K → K → K)
    (hmem : ∀ n, (mem n).length = n) (hterm : ∀ x y, term (.fin x) (.fin y) = .fin (F x y))
    (hd : g.Data m N M s q) (hc : Cache R P g m N s q last) (hs : c + m ≤ s.length) (hq : m ≤ q.length)
    (hsafe : ∀ t e, last = some (t, e) → e = true ∨ t < c)
    (hrow : ∀ n, m ≤ n → FullRel m R full (Spec.lastN n s) (q.take m)) (hcol : FullRel m R full q ((s.drop c).take m))
    (hR : ∀ i v, i + m ≤ q.length → R v ((q.drop i).take m) ((s.drop c).take m) → P' i v ((s.drop c).take m) ((q.drop i).take m))
    (hR0 : ∀ v, R v ((s.drop c).take m) (q.take m) → P' 0 v ((s.drop c).take m) (q.take m))
    (hP : ∀ i c' v, c = c' + 1 → i + 1 + m ≤ q.length → P i v ((s.drop c').take m) ((q.drop i).take m) →
      P' (i + 1) (rnd (rnd (v - F (seqOf s c') (seqOf q i)) + F (seqOf s (c' + m)) (seqOf q (i + m)))) ((s.drop c).take m) ((q.drop (i + 1)).take m)) :
    ∃ g' vs, column rnd mem full term g c = .ok (g', vs) ∧ g'.Data m N M s q ∧ Cache R P' g' m N s q (some ((c : Int), true)) ∧
      g'.prev = vs ∧ vs.length = q.length + 1 - m ∧
      ∀ i, i + m ≤ q.length → ∃ v, vs[i]? = some (.fin v) ∧ P' i v ((s.drop c).take m) ((q.drop i).take m) := by
  by_cases hcond : g.prevIdx ≠ some ((c : Int) - 1) ∨ (c : Int) = 0
  · unfold column
    rw [if_pos hcond]
    have hw : pySlice g.s c (c + g.m) = ((s.drop c).take m).map .fin := by
      rw [hd.m_eq, hd.s_eq, pySlice_window, ← List.map_drop, ← List.map_take]
    obtain ⟨vs, hv1, hv2⟩ := hcol
    rw [hw, hd.q_eq, hv1]
    simp only [bind, Except.bind, pure, Except.pure]
    have hvl : vs.length = q.length + 1 - m := by rw [hv2.length_eq, windows_length]
    have hval : ∀ i, i + m ≤ q.length → ∃ v, vs[i]? = some (.fin v) ∧ P' i v ((s.drop c).take m) ((q.drop i).take m) := by
      intro i hi
      have hlt : i < vs.length := by omega
      have hlt2 : i < (windows m q).length := by rw [windows_length]; omega
      obtain ⟨y, y1, y2⟩ := hv2.get hlt hlt2
      have hwi : (windows m q)[i] = (q.drop i).take m := by
        have := windows_getElem? m q i
        rw [if_pos (by omega), List.getElem?_eq_getElem hlt2] at this
        exact Option.some.inj this
      have y2' : R y ((windows m q)[i]) ((s.drop c).take m) := y2
      rw [hwi] at y2'
      exact ⟨y, by rw [List.getElem?_eq_getElem hlt]; exact congrArg some y1, hR i y hi y2'⟩
    refine ⟨_, _, rfl, ⟨hd.m_eq, hd.m_pos, hd.m_le, hd.series, hd.s_eq, hd.query⟩, ⟨hc.row, ?_⟩, rfl, hvl, hval⟩
    refine ⟨c, rfl, le_rfl, fun _ => rfl, hvl, hq, by exact_mod_cast hs, ?_⟩
    intro t' ht
    have : t' = c := by exact_mod_cast ht.symm
    subst this
    exact hval
  · obtain ⟨hp, hc0⟩ : g.prevIdx = some ((c : Int) - 1) ∧ (c : Int) ≠ 0 := by simpa using hcond
    obtain ⟨c, rfl⟩ : ∃ c', c = c' + 1 := ⟨c - 1, by omega⟩
    -- the cached column is the one directly before
    obtain ⟨hlen, hv⟩ : g.prev.length = q.length + 1 - m ∧ ∀ i, i + m ≤ q.length →
        ∃ v, g.prev[i]? = some (.fin v) ∧ P i v ((s.drop c).take m) ((q.drop i).take m) := by
      have hidx := hc.idx
      cases last with
      | none => simp only at hidx; rw [hidx] at hp; cases hp
      | some te =>
        obtain ⟨t, e⟩ := te
        obtain ⟨p, i1, i2, i3, i4, i5, i6, i7⟩ := hidx
        have hpc : p = c := by rw [i1] at hp; have := Option.some.inj hp; push_cast at this; omega
        have htc : t = c := by
          rcases hsafe t e rfl with h | h
          · rw [← i3 h, hpc]
          · push_cast at h; omega
        exact ⟨i4, i7 c htc⟩
    choose! pv hpv1 hpv2 using hv
    obtain ⟨g', vs, h1, h2, h3, h4, h5, h6, ⟨h, h7, h7'⟩, h8⟩ := column_cached (rnd := rnd) (mem := mem) g m N M s q last c F hmem hterm hd hc hs hq
      hrow (by rw [hp]; push_cast; simp) hlen pv hpv1
    have hval : ∀ i, i + m ≤ q.length → ∃ v, vs[i]? = some (.fin v) ∧ P' i v ((s.drop (c + 1)).take m) ((q.drop i).take m) := by
      intro i hi
      cases i with
      | zero => exact ⟨h, h7, hR0 h h7'⟩
      | succ i => exact ⟨_, h8 i hi, hP i c _ rfl hi (hpv2 i (by omega))⟩
    refine ⟨g', vs, h1, h2, ⟨h3, ?_⟩, h5, h6, hval⟩
    refine ⟨_, h4, le_rfl, fun _ => rfl, by rw [h5]; exact h6, hq, by exact_mod_cast hs, ?_⟩
    intro t' ht
    have : t' = c + 1 := by exact_mod_cast ht.symm
    subst this
    rw [h5]
    exact hval

/-- Cache part of a series append. -/
theorem finishSeries_cache (g : ColCache K) (m N : Nat) (M : Option Nat) (st : GSt K) (v : List K)
    (hd : g.Data m N M st.s st.q) (hc : Cache R P g m N st.s st.q st.last) (hv : v.length ≠ 0) (rb : RB (Fl K)) :
    Cache R P (ColCache.finishSeries { g with series := rb, backlog := g.backlog + v.length } (st.s.length + v.length - N)
        ((v.length : Int) - (N - min N (st.s.length + v.length) : Nat))) m N
      (st.step N M (.series v)).s (st.step N M (.series v)).q (st.step N M (.series v)).last := by
  have hq := hd.query
  have hsN : st.s.length ≤ N := by
    have := hd.series.len
    have h2 := congrArg List.length hd.s_eq
    rw [ColCache.s, List.length_map] at h2; omega
  have hrow : ∀ s0 ds : List K, st.s = Spec.lastN N (s0 ++ ds) → Spec.lastN N (st.s ++ v) = Spec.lastN N (s0 ++ (ds ++ v)) := by
    intro s0 ds h
    rw [h, lastN_lastN_append, List.append_assoc]
  simp only [GSt.step, if_neg hv]
  cases M with
  | none =>
    obtain ⟨h1, h2⟩ := hq
    simp only [ColCache.finishSeries, h1]
    refine ⟨?_, rfl⟩
    intro fr hfr
    simp only at hfr
    by_cases h0 : st.s.length + v.length - N = 0
    · rw [if_neg (by omega)] at hfr
      obtain ⟨r1, r2, s0, ds, r3, r4, r5⟩ := hc.row fr hfr
      rw [h2] at r2 r5
      have hnew : Spec.lastN N (st.s ++ v) = st.s ++ v := lastN_of_le _ _ (by rw [List.length_append]; omega)
      refine ⟨r1, by rw [hnew, List.length_append]; omega, s0, ds ++ v, hrow s0 ds r3, by simp [r4], ?_⟩
      rw [hnew, List.take_append_of_le_length r2]
      exact r5
    · rw [if_pos h0] at hfr; cases hfr
  | some M =>
    obtain ⟨rq, h1, h2⟩ := hq
    simp only [ColCache.finishSeries, h1]
    refine ⟨?_, ?_⟩
    · intro fr hfr
      obtain ⟨r1, r2, s0, ds, r3, r4, r5⟩ := hc.row fr hfr
      exact ⟨r1, r2, s0, ds ++ v, hrow s0 ds r3, by simp [r4], r5⟩
    · have hidx := hc.idx
      cases hl : st.last with
      | none =>
        rw [hl] at hidx
        simp only at hidx
        simp [hidx]
      | some te =>
        obtain ⟨t, e⟩ := te
        rw [hl] at hidx
        obtain ⟨p, i1, i2, i3, i4, i5, i6, i7⟩ := hidx
        simp only [Option.map_some]
        refine ⟨p - max 0 ((v.length : Int) - (N - min N (st.s.length + v.length) : Nat)), ?_, ?_, ?_, i4, i5, ?_, ?_⟩
        · simp only [i1]
          split
          · rw [Option.map_some, max_eq_right (by omega)]
          · rw [max_eq_left (by omega), sub_zero]
        · omega
        · intro he
          simp only [Bool.and_eq_true, Bool.or_eq_true, decide_eq_true_eq] at he
          have := i3 he.1
          omega
        · rw [lastN_length, List.length_append]; omega
        · intro t' ht i hi
          obtain ⟨w, w1, w2⟩ := i7 (t' + (st.s.length + v.length - N)) (by push_cast; omega) i hi
          refine ⟨w, w1, ?_⟩
          rw [lastN_drop_take N m t' _ st.s v rfl (by omega)]
          exact w2

/-- A query append. -/
theorem pushQuery_cache (g : ColCache K) (m N M : Nat) (st : GSt K) (v : List K) (hd : g.Data m N (some M) st.s st.q) (hv : v.length ≠ 0)
    (hc : Cache R P g m N st.s st.q st.last) :
    ∃ rq g', g.query = some rq ∧ g.pushQuery rq (v.map .fin) = .ok g' ∧ Cache R P g' m N st.s (Spec.lastN M (st.q ++ v)) none := by
  obtain ⟨rq, h1, h2, h3⟩ := hd.query
  obtain ⟨rb, p1, p2, p3, -⟩ := h2.push (v.map .fin)
  have hit : rb.items = (Spec.lastN M (st.q ++ v)).map .fin := by rw [p3, h3, ← List.map_append, lastN_map]
  refine ⟨rq, { g with query := some rb, firstRow := if rq.items.length + (v.map Fl.fin).length - M ≠ 0 then none else g.firstRow, prevIdx := none }, h1,
    by unfold ColCache.pushQuery; rw [p1]; rfl, ?_⟩
  refine ⟨?_, rfl⟩
  intro fr hfr
  simp only [h3, List.length_map] at hfr
  by_cases h0 : st.q.length + v.length - M = 0
  · rw [if_neg (by omega)] at hfr
    obtain ⟨r1, r2, s0, ds, r3, r4, r5⟩ := hc.row fr hfr
    have hnew : Spec.lastN M (st.q ++ v) = st.q ++ v := lastN_of_le _ _ (by rw [List.length_append]; omega)
    refine ⟨r1, by rw [hnew, List.length_append]; omega, s0, ds, r3, r4, ?_⟩
    rw [hnew, List.take_append_of_le_length r2]
    exact r5
  · rw [if_pos h0] at hfr; cases hfr

/-- A column request never touches the data. -/
theorem column_frame (g g' : ColCache K) (c : Int) (vs : List (Fl K)) (h : column rnd mem full term g c = .ok (g', vs)) :
    g'.series = g.series ∧ g'.query = g.query ∧ g'.m = g.m := by
  unfold column at h
  split at h
  · simp only [bind, Except.bind, pure, Except.pure] at h
    split at h
    · cases h
    · cases h; exact ⟨rfl, rfl, rfl⟩
  · simp only [bind, Except.bind, pure, Except.pure] at h
    split at h
    · cases h
    · rename_i r hr
      have hfr : r.1.series = g.series ∧ r.1.query = g.query ∧ r.1.m = g.m := by
        unfold ColCache.refreshFirstRow at hr
        split at hr
        · simp only [bind, Except.bind, pure, Except.pure] at hr
          split at hr
          · cases hr
          · split at hr
            · cases hr
            · cases hr; exact ⟨rfl, rfl, rfl⟩
        · split at hr
          · simp only [bind, Except.bind, pure, Except.pure] at hr
            split at hr
            · cases hr
            · split at hr
              · cases hr
              · cases hr; exact ⟨rfl, rfl, rfl⟩
          · cases hr; exact ⟨rfl, rfl, rfl⟩
      repeat' (split at h; · cases h)
      cases h
      exact hfr

end Rounded
end Verif
