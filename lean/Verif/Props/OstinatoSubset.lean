import Verif.Lemmas.OstinatoSubset

/-!
# C56: `find_consensus_motif_subset`
-/

namespace Verif
open Spec
namespace Ostinato
open ZN

/-! ### The specification in terms of a list of series -/

theorem forall₂_match_iff (m : Nat) (series : List (List ℝ)) (hs : ∀ s ∈ series, m ≤ s.length) (i a : Nat) (hi : i < series.length) (js : List Nat)
    (hj : ∀ j ∈ js, j < series.length) (ds : List ℝ) : List.Forall₂ (IsMatch m series i a) js ds ↔ ds = js.map (bestMatch m series i a) := by
  induction js generalizing ds with
  | nil => cases ds <;> simp
  | cons j js ih =>
    obtain ⟨y, hy⟩ := isMatch_exists m series hs i a j hi (hj j (by simp))
    cases ds with
    | nil => simp
    | cons d ds =>
      rw [List.forall₂_cons, ih (fun j h => hj j (by simp [h])), List.map_cons, List.cons.injEq]
      refine and_congr_left fun _ => ⟨fun h => (bestMatch_eq h).symm, fun h => ?_⟩
      rw [h, bestMatch_eq hy]; exact hy

theorem listRadius_iff (m : Nat) (series : List (List ℝ)) (hs : ∀ s ∈ series, m ≤ s.length) (i a : Nat) (hi : i < series.length) (js : List Nat)
    (hj : ∀ j ∈ js, j < series.length) (p : Nat) (r : ℝ) :
    IsListRadius m series p js i a r ↔ IsKthLargest p (js.map (bestMatch m series i a)) r := by
  unfold IsListRadius
  simp only [forall₂_match_iff m series hs i a hi js hj]
  exact ⟨fun ⟨ds, h1, h2⟩ => h1 ▸ h2, fun h => ⟨_, rfl, h⟩⟩

theorem countP_map_card (f : Nat → ℝ) (js : List Nat) (hnd : js.Nodup) (q : ℝ → Prop) [DecidablePred q] :
    (js.map f).countP (fun x => decide (q x)) = (js.toFinset.filter fun j => q (f j)).card := by
  rw [List.countP_map, List.countP_eq_length_filter, ← List.toFinset_card_of_nodup (hnd.filter _), List.toFinset_filter]
  congr 1
  ext j
  simp

/-- If the list holds every other series once, the `(n - k + 1)`-th largest distance is the `(k - 1)`-th smallest. -/
theorem subsetRadius_iff (m : Nat) (series : List (List ℝ)) (hs : ∀ s ∈ series, m ≤ s.length) (i a : Nat) (hi : i < series.length) (js : List Nat)
    (hnd : js.Nodup) (hj : ∀ j, j ∈ js ↔ j < series.length ∧ j ≠ i) (k : Nat) (hk : 2 ≤ k) (hkn : k ≤ series.length) (r : ℝ) :
    IsListRadius m series (series.length - k + 1) js i a r ↔ IsSubsetRadius m series k i a r := by
  rw [listRadius_iff m series hs i a hi js (fun j h => ((hj j).mp h).1)]
  set f := bestMatch m series i a with hf
  set n := series.length with hn
  set F := js.toFinset with hF
  have hcard : F.card = n - 1 := by
    have : F = (Finset.range n).erase i := by ext j; simp [hF, hj]; tauto
    rw [this, Finset.card_erase_of_mem (by simpa using hi), Finset.card_range]
  have hmem : ∀ j, j ∈ F ↔ j < n ∧ j ≠ i := by intro j; rw [hF, List.mem_toFinset, hj]
  have hset : ∀ r', (∃ J : Finset Nat, J.card = k - 1 ∧ ∀ j ∈ J, j < n ∧ j ≠ i ∧ ∃ x ≤ r', IsMatch m series i a j x) ↔
      k - 1 ≤ (F.filter fun j => f j ≤ r').card := by
    intro r'
    constructor
    · rintro ⟨J, h1, h2⟩
      rw [← h1]
      refine Finset.card_le_card fun j hjJ => ?_
      obtain ⟨g1, g2, x, g3, g4⟩ := h2 j hjJ
      rw [Finset.mem_filter, hmem]
      exact ⟨⟨g1, g2⟩, by rw [hf, bestMatch_eq g4]; exact g3⟩
    · intro h
      obtain ⟨J, h1, h2⟩ := Finset.exists_subset_card_eq h
      refine ⟨J, h2, fun j hjJ => ?_⟩
      have := h1 hjJ
      rw [Finset.mem_filter, hmem] at this
      obtain ⟨y, hy⟩ := isMatch_exists m series hs i a j hi this.1.1
      exact ⟨this.1.1, this.1.2, y, by rw [← bestMatch_eq hy]; exact this.2, hy⟩
  have hsplit : ∀ q : Nat → Prop, ∀ [DecidablePred q], (F.filter q).card + (F.filter fun j => ¬ q j).card = n - 1 := by
    intro q _
    rw [Finset.card_filter_add_card_filter_not, hcard]
  have s1 := fun r' : ℝ => hsplit (fun j => f j ≤ r')
  have s2 := fun r' : ℝ => hsplit (fun j => f j < r')
  simp only [not_le, not_lt] at s1 s2
  unfold IsKthLargest IsSubsetRadius
  rw [countP_map_card f js hnd (fun x => r ≤ x), countP_map_card f js hnd (fun x => r < x), ← hF]
  constructor
  · rintro ⟨h1, h2⟩
    refine ⟨(hset r).mpr (by have := s1 r; omega), fun r' hr' => ?_⟩
    have hr' := (hset r').mp hr'
    by_contra hc
    rw [not_le] at hc
    have h3 : (F.filter fun j => f j ≤ r').card ≤ (F.filter fun j => f j < r).card :=
      Finset.card_le_card fun j hjm => by
        rw [Finset.mem_filter] at hjm ⊢
        exact ⟨hjm.1, hjm.2.trans_lt hc⟩
    have := s2 r
    omega
  · rintro ⟨h1, h2⟩
    have h1 := (hset r).mp h1
    refine ⟨?_, by have := s1 r; omega⟩
    by_contra hc
    have h3 : k - 1 ≤ (F.filter fun j => f j < r).card := by have := s2 r; omega
    obtain ⟨J, g1, g2⟩ := Finset.exists_subset_card_eq h3
    have hne : J.Nonempty := Finset.card_pos.mp (by omega)
    obtain ⟨j0, g3, g4⟩ := J.exists_max_image f hne
    have hlt : f j0 < r := (Finset.mem_filter.mp (g1 g3)).2
    have := h2 ((hset (f j0)).mpr (by
      rw [← g2]
      refine Finset.card_le_card fun j hjJ => ?_
      rw [Finset.mem_filter]
      exact ⟨(Finset.mem_filter.mp (g1 hjJ)).1, g4 j hjJ⟩))
    exact absurd hlt (not_lt.mpr this)

/-! ### The generators -/

/-- The state of a generator of `cached_generators`. -/
def QueryInv (m : Nat) (q : List ℝ) (g : ZN) : Prop :=
  ∃ st : GSt ℝ, g.Base m 0 m (some q.length) st.s st.q ∧ g.CacheOk m m st ∧ st.q = q ∧
    ((st.s = [] ∧ st.last = none) ∨ (st.s.length = m ∧ ∀ t e, st.last = some (t, e) → e = true))

theorem queryGen_ok (mem : ZN.Mem) (hmem : mem.Ok) (m : Nat) (hm : 0 < m) (q : List ℝ) (hq : m ≤ q.length) :
    ∃ g, queryGen mem m (q.map .fin) = .ok g ∧ QueryInv m q g := by
  obtain ⟨z, z1, z2, z3, z4⟩ := prepareStreaming_ok mem hmem 0 2 (by norm_num) le_rfl m hm m (some q.length) le_rfl (by intro M' h; cases h; exact hq)
  have H := ZN.serves mem hmem 0 m m (some q.length)
  obtain ⟨g, g1, g2, g3⟩ := H.query z ⟨[], [], none⟩ q ⟨z2, z.noCache m _ _ _ z3 z4⟩ ⟨by simp [GSt.Valid], trivial⟩
  have hq0 : q.length ≠ 0 := by omega
  refine ⟨g, ?_, _, g2, g3, ?_, ?_⟩
  · unfold queryGen ZN.streaming
    simp only [List.length_map, Option.map_some, Int.toNat_natCast, z1, bind, Except.bind]
    exact g1
  · simp [GSt.step, hq0, lastN_of_le]
  · left; simp [GSt.step, hq0]

theorem probes_ok (mem : ZN.Mem) (hmem : mem.Ok) (m : Nat) (hm : 0 < m) (series : List (List ℝ)) (hs : ∀ s ∈ series, m ≤ s.length) (i a : Nat)
    (s : List ℝ) (hi : series[i]? = some s) (ha : a + m ≤ s.length) :
    Probes (ZN.genOps mem) series.length (fun o g => QueryInv m (series.getD o []) g) (pySlice (s.map .fin) a (a + m)) (bestMatch m series i a) := by
  intro o ho g hg
  have hq1 : series[o]? = some series[o] := List.getElem?_eq_getElem ho
  set q := series[o]
  have hqg : series.getD o [] = q := by rw [List.getD_eq_getElem?_getD, hq1, Option.getD_some]
  rw [hqg] at hg
  obtain ⟨st, b1, b2, b3, b4⟩ := hg
  have hql : m ≤ q.length := hs q (List.getElem_mem ho)
  have hw : pySlice (s.map Fl.fin) a (a + m) = (win m s a).map Fl.fin := by
    rw [pySlice_window, List.map_take, List.map_drop]
  have hwl : (win m s a).length = m := by simp; omega
  have H := ZN.serves mem hmem 0 m m (some q.length)
  obtain ⟨g1, h1, h2, h3⟩ := H.series g st (win m s a) ⟨b1, b2⟩ ⟨trivial, trivial⟩
  set st1 := st.step m (some q.length) (.series (win m s a)) with hst1
  have e1 : st1.s = win m s a := by
    rw [hst1]
    simp only [GSt.step, hwl, if_neg (show ¬ m = 0 by omega)]
    unfold lastN
    rw [List.length_append, hwl, List.drop_append]
    simp
  have e2 : st1.q = q := by
    rw [hst1]
    simp only [GSt.step, hwl, if_neg (show ¬ m = 0 by omega)]
    exact b3
  have e3 : ∀ t e, st1.last = some (t, e) → e = true := by
    intro t e h
    rw [hst1] at h
    simp only [GSt.step, hwl, if_neg (show ¬ m = 0 by omega)] at h
    rcases b4 with ⟨c1, c2⟩ | ⟨c1, c2⟩
    · rw [c2] at h; cases h
    · cases hl : st.last with
      | none => rw [hl] at h; cases h
      | some l =>
        rw [hl] at h
        have := c2 l.1 l.2 hl
        simp only [Option.map_some, Option.some.injEq, Prod.mk.injEq, this, c1, decide_true, Bool.true_or, Bool.and_true] at h
        exact h.2.symm
  obtain ⟨g2, k1, k2, k3⟩ := H.column g1 st1 0 ⟨h2, h3⟩ ⟨⟨by rw [e1, hwl]; omega, by rw [e2]; exact hql⟩, fun t e h => Or.inl (e3 t e h)⟩
  obtain ⟨x, x1, x2⟩ := npMin_range (q.length + 1 - m) (by omega) (fun b => zdist m 0 (seqOf s) (seqOf q) b a)
  refine ⟨g1, g2, _, by rw [hw]; exact h1, k1, ?_, ?_⟩
  · rw [e1, e2]
    have e4 : win m (win m s a) 0 = win m s a := by
      unfold win
      rw [List.drop_zero, List.take_take, min_self]
    have e5 : (fun i => ZN.dist 0 m (win m (win m s a) 0) (win m q i)) = fun b => Fl.fin (zdist m 0 (seqOf s) (seqOf q) b a) := by
      funext b
      rw [e4, ZN.dist, zdist_win]
    rw [e5, x1]
    congr 2
    refine (bestMatch_eq ⟨s, q, hi, hq1, ?_⟩).symm
    have : {d | ∃ b, b + m ≤ q.length ∧ d = zdist m 0 (seqOf s) (seqOf q) b a} =
        {d | ∃ b, b < q.length + 1 - m ∧ d = zdist m 0 (seqOf s) (seqOf q) b a} := by
      ext d
      exact exists_congr fun b => and_congr_left fun _ => by omega
    rw [this]; exact x2
  · simp only
    rw [hqg]
    refine ⟨_, k2, k3, e2, Or.inr ⟨by show st1.s.length = m; rw [e1, hwl], ?_⟩⟩
    intro t e h
    cases h; rfl

theorem calculateMP_ok (mem : ZN.Mem) (hmem : mem.Ok) (shuffle : List Int → List Int) (hsh : ∀ l, (shuffle l).Perm l) (m : Nat) (hm : 0 < m)
    (series : List (List ℝ)) (i j : Nat) (s q : List ℝ) (hi : series[i]? = some s) (hj : series[j]? = some q) (hs : m ≤ s.length) (hq : m ≤ q.length) :
    calculateMP mem shuffle m (s.map .fin) (q.map .fin) = .ok ((List.range (s.length + 1 - m)).map fun a => .fin (bestMatch m series i a j)) := by
  obtain ⟨p, h1, ⟨h2, h3⟩, h4⟩ := C60_znorm mem hmem 0 shuffle hsh true m hm s (some q) hs (by intro q' h; cases h; exact hq) none (by simp)
  unfold calculateMP
  rw [Option.map_some] at h1
  simp only [h1, bind, Except.bind, pure, Except.pure]
  congr 1
  apply List.ext_getElem?
  intro c
  by_cases hc : c < s.length + 1 - m
  · obtain ⟨l, r, v, li, ri, ix, -, -, e, -, -, -, -, -, hn⟩ := h4 c hc
    rw [e, List.getElem?_map, List.getElem?_range hc, Option.map_some]
    congr 1
    rcases hn with ⟨-, hn⟩ | ⟨b, hb, -, rfl, -, hmin⟩
    · exact absurd (by simp) (hn 0 (by simp only [Option.getD_some]; omega))
    · congr 1
      refine (bestMatch_eq ⟨s, q, hi, hj, ⟨b, by simp only [Option.getD_some] at hb; omega, rfl⟩, ?_⟩).symm
      rintro d ⟨b', hb', rfl⟩
      exact hmin b' (by simp only [Option.getD_some]; omega) (by simp)
  · rw [List.getElem?_eq_none, List.getElem?_eq_none (by simpa using hc)]
    unfold MP.merged
    rw [List.length_zipWith, h2, h3]
    omega

/-! ### The theorems -/

theorem subsetGuards_ok (series : List (List ℝ)) (m k : Nat) (hm : 3 ≤ m) (hk : 2 ≤ k) (hkn : k ≤ series.length) (hs : ∀ s ∈ series, m ≤ s.length) :
    subsetGuards (series.map (·.map Fl.fin)) (m : Int) (k : Int) = .ok () := by
  unfold subsetGuards
  rw [List.length_map, if_neg (by omega), if_neg (by omega), if_neg (by omega), if_neg]
  simp only [List.any_map, List.any_eq_true, Function.comp, List.length_map, decide_eq_true_eq, not_exists, not_and, not_lt]
  intro s h; exact_mod_cast hs s h

theorem sub_iff (m : Nat) (series : List (List ℝ)) (hs : ∀ s ∈ series, m ≤ s.length) (i a : Nat) :
    IsSub m series i a ↔ i < series.length ∧ a < (((series.getD i []).length : Int) - m + 1).toNat := by
  constructor
  · rintro ⟨s, h1, h2⟩
    refine ⟨(List.getElem?_eq_some_iff.mp h1).1, ?_⟩
    rw [List.getD_eq_getElem?_getD, h1, Option.getD_some]; omega
  · rintro ⟨h1, h2⟩
    refine ⟨series[i], List.getElem?_eq_getElem h1, ?_⟩
    rw [List.getD_eq_getElem?_getD, List.getElem?_eq_getElem h1, Option.getD_some] at h2
    have := hs _ (List.getElem_mem h1)
    omega

/-- A list of at least `p` numbers has a `p`-th largest one. -/
theorem kth_exists (p : Nat) (hp : 0 < p) (l : List ℝ) (hl : p ≤ l.length) : ∃ r, IsKthLargest p l r := by
  have hs : (l.insertionSort (· ≥ ·)).Pairwise (· ≥ ·) := List.pairwise_insertionSort _ _
  have hq : (l.insertionSort (· ≥ ·)).Perm l := List.perm_insertionSort _ _
  set l' := l.insertionSort (· ≥ ·) with hl'
  have hT : Top p l (l'.take p) := by
    refine ⟨by rw [List.length_take, hq.length_eq]; omega, l'.drop p, by rw [List.take_append_drop]; exact hq, fun d hd x hx => ?_⟩
    have h1 := hs
    rw [← List.take_append_drop p l', List.pairwise_append] at h1
    exact h1.2.2 x hx d hd
  obtain ⟨r, -, h1, h2⟩ := npMin_fin (l'.take p) (by
    intro h
    have := hT.1
    rw [h] at this
    simp at this
    omega)
  exact ⟨r, hT.kth h1 h2⟩

/-- What the search computes for any choice of the series consulted: the smallest `(n - k + 1)`-th largest distance to them. -/
theorem subset_optimum (others : Nat → Nat → Nat → List Nat) (mem : ZN.Mem) (hmem : mem.Ok) (shuffle : Nat → Nat → List Int → List Int)
    (hsh : ∀ i t l, (shuffle i t l).Perm l) (argsort : List (Fl ℝ) → List Nat) (hsort : ∀ l, IsArgsort l (argsort l)) (m k : Nat) (hm : 3 ≤ m)
    (series : List (List ℝ)) (hk : 2 ≤ k) (hkn : k ≤ series.length) (hs : ∀ s ∈ series, m ≤ s.length)
    (hoth : ∀ i < series.length, ∀ o ∈ others (series.length - k) series.length i, o < series.length) :
    let cons := fun i => consulted series.length (series.length - k) (others (series.length - k) series.length i) i
    ∃ (r : ℝ) (i a : Nat), subsetSearch others mem shuffle argsort (series.map (·.map .fin)) m k = .ok ⟨.fin r, i, a⟩ ∧ IsSub m series i a ∧
      IsListRadius m series (series.length - k + 1) (cons i) i a r ∧
      ∀ i' a' r', IsSub m series i' a' → IsListRadius m series (series.length - k + 1) (cons i') i' a' r' → r ≤ r' := by
  intro cons
  have hlen : (series.map (·.map Fl.fin)).length = series.length := List.length_map _
  have hcons : ∀ i < series.length, ∀ j ∈ cons i, j < series.length := by
    intro i hi j hj
    rcases List.mem_append.mp hj with hj | hj
    · obtain ⟨t, -, rfl⟩ := List.mem_map.mp hj
      exact Nat.mod_lt _ (by omega)
    · exact hoth i hi j hj
  obtain ⟨gens, g1, g2, g3⟩ := mapM_total (queryGen mem (m : Int)) (fun x g => ∃ q, x = q.map Fl.fin ∧ QueryInv m q g) (series.map (·.map Fl.fin)) (by
    intro x hx
    obtain ⟨q, h1, rfl⟩ := List.mem_map.mp hx
    obtain ⟨g, h2, h3⟩ := queryGen_ok mem hmem m (by omega) q (hs q h1)
    exact ⟨g, h2, q, rfl, h3⟩)
  have hfin : ∀ a b : List ℝ, a.map Fl.fin = b.map Fl.fin → a = b := fun a b h =>
    List.map_injective_iff.mpr (fun x y h => by cases h; rfl) h
  have hat : ∀ (i : Nat) (x : List (Fl ℝ)), (series.map (·.map Fl.fin))[i]? = some x → ∃ s, series[i]? = some s ∧ x = s.map Fl.fin := by
    intro i x hx
    rw [List.getElem?_map] at hx
    cases h : series[i]? with
    | none => rw [h] at hx; cases hx
    | some s => rw [h] at hx; cases hx; exact ⟨s, rfl, rfl⟩
  have hnum : ∀ (i : Nat) (s : List ℝ), series[i]? = some s → (((series.getD i []).length : Int) - m + 1).toNat = s.length + 1 - m := by
    intro i s h
    rw [List.getD_eq_getElem?_getD, h, Option.getD_some]
    omega
  obtain ⟨best, b1, b2⟩ := subsetSeries_ok (gops := ZN.genOps mem) (len := fun i => (((series.getD i []).length : Int) - m + 1).toNat)
    (B := bestMatch m series) (Inv := fun o g => QueryInv m (series.getD o []) g) (fun i t => calculateMP mem (shuffle i t) m) argsort
    (fun l => (hsort l).1) (series.map (·.map Fl.fin)) m (series.length - k) (by rw [hlen]; omega)
    (others (series.length - k) series.length) (by rw [hlen]; exact hoth)
    (by
      intro i x hx
      obtain ⟨s, h1, rfl⟩ := hat i x hx
      rw [hnum i s h1, List.length_map]
      omega)
    (by
      intro t i j x y hx hy _
      obtain ⟨s, h1, rfl⟩ := hat i x hx
      obtain ⟨q, h2, rfl⟩ := hat j y hy
      rw [hnum i s h1]
      exact calculateMP_ok mem hmem (shuffle i t) (hsh i t) m (by omega) series i j s q h1 h2 (hs s (List.mem_of_getElem? h1)) (hs q (List.mem_of_getElem? h2)))
    (by
      intro i x hx a ha
      obtain ⟨s, h1, rfl⟩ := hat i x hx
      rw [hnum i s h1] at ha
      rw [hlen]
      exact probes_ok mem hmem m (by omega) series hs i a s h1 (by omega))
    (List.range series.length) (by rw [hlen]; simp) gens ⟨.pinf, -1, -1⟩ ∅ ⟨g2, by
      intro o g hg
      have ho : o < series.length := by
        have := (List.getElem?_eq_some_iff.mp hg).1
        rwa [g2, hlen] at this
      obtain ⟨y, y1, q, y2, y3⟩ := g3 o (series[o].map .fin) (by rw [List.getElem?_map, List.getElem?_eq_getElem ho]; rfl)
      rw [hg] at y1
      cases y1
      rw [← hfin _ _ y2] at y3
      rw [List.getD_eq_getElem?_getD, List.getElem?_eq_getElem ho]
      exact y3⟩ ⟨by simp, Or.inl rfl⟩
  rw [hlen] at b2
  have hfind : subsetSearch others mem shuffle argsort (series.map (·.map .fin)) m k = .ok best := by
    unfold subsetSearch
    simp only [subsetGuards_ok series m k hm hk hkn hs, g1, hlen, Int.toNat_natCast, b1, bind, Except.bind]
  have hsub := sub_iff m series hs
  have hopt : ∀ i' a' r', IsSub m series i' a' → IsListRadius m series (series.length - k + 1) (cons i') i' a' r' → best.radius ≤ .fin r' := by
    intro i' a' r' h1 h2
    have h3 := (hsub i' a').mp h1
    exact b2.1 (i', a') (Or.inr ⟨List.mem_range.mpr h3.1, h3.2⟩) r' ((listRadius_iff m series hs i' a' h3.1 _ (hcons i' h3.1) _ r').mp h2)
  rcases b2.2 with h | ⟨i, a, r, h, h1, h2, h3⟩
  · exfalso
    have h0 : IsSub m series 0 0 := ⟨series[0], List.getElem?_eq_getElem (by omega), by simpa using hs _ (List.getElem_mem _)⟩
    obtain ⟨r, hr⟩ := kth_exists (series.length - k + 1) (by omega) ((cons 0).map (bestMatch m series 0 0)) (by
      simp only [cons, consulted, List.length_map, List.length_append, List.length_range]
      omega)
    have := hopt 0 0 r h0 ((listRadius_iff m series hs 0 0 (by omega) _ (hcons 0 (by omega)) _ r).mpr hr)
    rw [h] at this
    exact absurd this (by rw [Fl.le_def]; simp [Fl.key])
  · refine ⟨r, i, a, by rw [hfind, h], (hsub i a).mpr ⟨h1, h2⟩, (listRadius_iff m series hs i a h1 _ (hcons i h1) _ r).mpr h3, ?_⟩
    intro i' a' r' h4 h5
    have := hopt i' a' r' h4 h5
    rw [h] at this
    exact (Fl.fin_le_fin _ _).mp this

/-- What the code computes, for all `k`: the distances it looks at are those to the next `n - k + 1` series and, `k - 2` times, to the one
after these. -/
theorem _root_.Verif.C56_consulted (mem : ZN.Mem) (hmem : mem.Ok) (shuffle : Nat → Nat → List Int → List Int)
    (hsh : ∀ i t l, (shuffle i t l).Perm l) (argsort : List (Fl ℝ) → List Nat) (hsort : ∀ l, IsArgsort l (argsort l)) (m k : Nat) (hm : 3 ≤ m)
    (series : List (List ℝ)) (hk : 2 ≤ k) (hkn : k ≤ series.length) (hs : ∀ s ∈ series, m ≤ s.length) :
    let js := fun i => (List.range (series.length - k + 1)).map (fun t => (i + 1 + t) % series.length) ++
      List.replicate (k - 2) ((i + (series.length - k) + 2) % series.length)
    ∃ (r : ℝ) (i a : Nat), findConsensusMotifSubset mem shuffle argsort (series.map (·.map .fin)) m k = .ok ⟨.fin r, i, a⟩ ∧ IsSub m series i a ∧
      IsListRadius m series (series.length - k + 1) (js i) i a r ∧
      ∀ i' a' r', IsSub m series i' a' → IsListRadius m series (series.length - k + 1) (js i') i' a' r' → r ≤ r' := by
  intro js
  have h := subset_optimum codeOthers mem hmem shuffle hsh argsort hsort m k hm series hk hkn hs (by
    intro i hi o ho
    obtain ⟨t, -, rfl⟩ := List.mem_map.mp ho
    exact Nat.mod_lt _ (by omega))
  have e : (fun i => consulted series.length (series.length - k) (codeOthers (series.length - k) series.length i) i) = js := by
    funext i
    simp only [js, consulted, codeOthers, List.map_const', List.length_range]
    rw [show series.length - (series.length - k) - 2 = k - 2 by omega]
  have e' := fun i => congrFun e i
  simp only at h e'
  simp only [e'] at h
  exact h

/-- The indices `i + 1, …, i + n - 1` modulo `n` are all indices but `i`. -/
theorem rotation (n i : Nat) (hi : i < n) :
    ((List.range (n - 1)).map fun t => (i + 1 + t) % n).Nodup ∧ ∀ j, j ∈ ((List.range (n - 1)).map fun t => (i + 1 + t) % n) ↔ j < n ∧ j ≠ i := by
  have hval : ∀ t < n - 1, (i + 1 + t) % n = if i + 1 + t < n then i + 1 + t else i + 1 + t - n := by
    intro t ht
    split
    · exact Nat.mod_eq_of_lt ‹_›
    · rw [Nat.mod_eq_sub_mod (by omega), Nat.mod_eq_of_lt (by omega)]
  constructor
  · rw [List.nodup_map_iff_inj_on List.nodup_range]
    intro x hx y hy h
    rw [List.mem_range] at hx hy
    simp only [hval x hx, hval y hy] at h
    split at h <;> split at h <;> omega
  · intro j
    rw [List.mem_map]
    constructor
    · rintro ⟨t, ht, rfl⟩
      rw [List.mem_range] at ht
      rw [hval t ht]
      split <;> omega
    · rintro ⟨h1, h2⟩
      by_cases h : i < j
      · exact ⟨j - i - 1, List.mem_range.mpr (by omega), by rw [hval _ (by omega), if_pos (by omega)]; omega⟩
      · exact ⟨j + n - i - 1, List.mem_range.mpr (by omega), by rw [hval _ (by omega), if_neg (by omega)]; omega⟩

/-- The search is right whenever every other series is consulted once. -/
theorem subset_complete (others : Nat → Nat → Nat → List Nat) (mem : ZN.Mem) (hmem : mem.Ok) (shuffle : Nat → Nat → List Int → List Int)
    (hsh : ∀ i t l, (shuffle i t l).Perm l) (argsort : List (Fl ℝ) → List Nat) (hsort : ∀ l, IsArgsort l (argsort l)) (m k : Nat) (hm : 3 ≤ m)
    (series : List (List ℝ)) (hk : 2 ≤ k) (hkn : k ≤ series.length) (hs : ∀ s ∈ series, m ≤ s.length)
    (hoth : ∀ i < series.length, others (series.length - k) series.length i =
      (List.range (k - 2)).map fun t => (i + (series.length - k) + 2 + t) % series.length) :
    ∃ (r : ℝ) (i a : Nat), subsetSearch others mem shuffle argsort (series.map (·.map .fin)) m k = .ok ⟨.fin r, i, a⟩ ∧ IsSub m series i a ∧
      IsSubsetRadius m series k i a r ∧ ∀ i' a' r', IsSub m series i' a' → IsSubsetRadius m series k i' a' r' → r ≤ r' := by
  obtain ⟨r, i, a, h1, h2, h3, h4⟩ := subset_optimum others mem hmem shuffle hsh argsort hsort m k hm series hk hkn hs (by
    intro i hi o ho
    rw [hoth i hi] at ho
    obtain ⟨t, -, rfl⟩ := List.mem_map.mp ho
    exact Nat.mod_lt _ (by omega))
  have hc : ∀ i < series.length, consulted series.length (series.length - k) (others (series.length - k) series.length i) i =
      (List.range (series.length - 1)).map fun t => (i + 1 + t) % series.length := by
    intro i hi
    rw [consulted, hoth i hi, show series.length - 1 = (series.length - k + 1) + (k - 2) by omega, List.range_add (n := series.length - k + 1), List.map_append (l₁ := List.range (series.length - k + 1)), List.map_map]
    congr 1
    apply List.map_congr_left
    intro t _
    simp only [Function.comp_apply]
    congr 1
    omega
  have hsub : ∀ i a, IsSub m series i a → i < series.length := fun i a h => ((sub_iff m series hs i a).mp h).1
  have hiff : ∀ i a r, IsSub m series i a → (IsListRadius m series (series.length - k + 1)
      (consulted series.length (series.length - k) (others (series.length - k) series.length i) i) i a r ↔ IsSubsetRadius m series k i a r) := by
    intro i a r h
    have hi := hsub i a h
    rw [hc i hi]
    exact subsetRadius_iff m series hs i a hi _ (rotation _ i hi).1 (rotation _ i hi).2 k hk hkn r
  exact ⟨r, i, a, h1, h2, (hiff i a r h2).mp h3, fun i' a' r' g1 g2 => h4 i' a' r' g1 ((hiff i' a' r' g1).mpr g2)⟩

/-- **C56** for `k = 2` and `k = 3` (partial: for `k ≥ 4` the code consults one series several times and leaves others out, and the result
can be wrong, `C56_wrong`; `C56_consulted` says what it computes then). -/
theorem _root_.Verif.C56_partial (mem : ZN.Mem) (hmem : mem.Ok) (shuffle : Nat → Nat → List Int → List Int)
    (hsh : ∀ i t l, (shuffle i t l).Perm l) (argsort : List (Fl ℝ) → List Nat) (hsort : ∀ l, IsArgsort l (argsort l)) (m k : Nat) (hm : 3 ≤ m)
    (series : List (List ℝ)) (hk : 2 ≤ k) (hk3 : k ≤ 3) (hkn : k ≤ series.length) (hs : ∀ s ∈ series, m ≤ s.length) :
    ∃ (r : ℝ) (i a : Nat), findConsensusMotifSubset mem shuffle argsort (series.map (·.map .fin)) m k = .ok ⟨.fin r, i, a⟩ ∧ IsSub m series i a ∧
      IsSubsetRadius m series k i a r ∧ ∀ i' a' r', IsSub m series i' a' → IsSubsetRadius m series k i' a' r' → r ≤ r' := by
  refine subset_complete codeOthers mem hmem shuffle hsh argsort hsort m k hm series hk hkn hs ?_
  intro i hi
  unfold codeOthers
  rw [show series.length - (series.length - k) - 2 = k - 2 by omega]
  apply List.map_congr_left
  intro t ht
  rw [List.mem_range] at ht
  rw [show t = 0 by omega]

/-- The same code with the index corrected to `(series_idx + num_ignored_series + 2 + j) % num_series` meets C56 for all `k`. -/
theorem _root_.Verif.C56_repaired (mem : ZN.Mem) (hmem : mem.Ok) (shuffle : Nat → Nat → List Int → List Int)
    (hsh : ∀ i t l, (shuffle i t l).Perm l) (argsort : List (Fl ℝ) → List Nat) (hsort : ∀ l, IsArgsort l (argsort l)) (m k : Nat) (hm : 3 ≤ m)
    (series : List (List ℝ)) (hk : 2 ≤ k) (hkn : k ≤ series.length) (hs : ∀ s ∈ series, m ≤ s.length) :
    ∃ (r : ℝ) (i a : Nat), subsetSearch (fun ignored n i => (List.range (n - ignored - 2)).map fun j => (i + ignored + 2 + j) % n) mem shuffle argsort
        (series.map (·.map .fin)) m k = .ok ⟨.fin r, i, a⟩ ∧ IsSub m series i a ∧
      IsSubsetRadius m series k i a r ∧ ∀ i' a' r', IsSub m series i' a' → IsSubsetRadius m series k i' a' r' → r ≤ r' := by
  refine subset_complete _ mem hmem shuffle hsh argsort hsort m k hm series hk hkn hs ?_
  intro i hi
  rw [show series.length - (series.length - k) - 2 = k - 2 by omega]

/-- The distances between the subsequences compared are not negative. -/
theorem match_nonneg {m : Nat} {series : List (List ℝ)} {i a j : Nat} {x : ℝ} (h : IsMatch m series i a j x) : 0 ≤ x := by
  obtain ⟨s, q, -, -, ⟨b, -, rfl⟩, -⟩ := h
  exact zdist_nonneg _ _ _ _ _ _

/-- The radius exists, so that the minimality in C56 says something about every subsequence. -/
theorem _root_.Verif.C56_radius_exists (m k : Nat) (series : List (List ℝ)) (hk : 2 ≤ k) (hkn : k ≤ series.length) (hs : ∀ s ∈ series, m ≤ s.length)
    (i a : Nat) (h : IsSub m series i a) : ∃ r, IsSubsetRadius m series k i a r ∧ 0 ≤ r := by
  have hi := ((sub_iff m series hs i a).mp h).1
  obtain ⟨h1, h2⟩ := rotation series.length i hi
  obtain ⟨r, hr⟩ := kth_exists (series.length - k + 1) (by omega)
    (((List.range (series.length - 1)).map fun t => (i + 1 + t) % series.length).map (bestMatch m series i a)) (by simp; omega)
  have hr' := (subsetRadius_iff m series hs i a hi _ h1 h2 k hk hkn r).mp
    ((listRadius_iff m series hs i a hi _ (fun j hj => ((h2 j).mp hj).1) _ r).mpr hr)
  obtain ⟨J, g1, g2⟩ := hr'.1
  obtain ⟨j, hj⟩ : J.Nonempty := Finset.card_pos.mp (by omega)
  obtain ⟨-, -, x, hx, hm⟩ := g2 j hj
  exact ⟨r, hr', le_trans (match_nonneg hm) hx⟩

/-- Rejected arguments. -/
theorem _root_.Verif.C56_guards (mem : ZN.Mem) (shuffle : Nat → Nat → List Int → List Int) (argsort : List (Fl ℝ) → List Nat)
    (series : List (List (Fl ℝ))) (m k : Int)
    (h : series.length < 2 ∨ m < 3 ∨ k < 2 ∨ k > series.length ∨ ∃ s ∈ series, (s.length : Int) < m) :
    findConsensusMotifSubset mem shuffle argsort series m k = .error .runtimeError := by
  have : subsetGuards series m k = .error .runtimeError := by
    unfold subsetGuards
    by_cases h1 : series.length < 2
    · rw [if_pos h1]
    · by_cases h2 : m < 3
      · rw [if_neg h1, if_pos h2]
      · by_cases h3 : k < 2 ∨ k > series.length
        · rw [if_neg h1, if_neg h2, if_pos h3]
        · rw [if_neg h1, if_neg h2, if_neg h3, if_pos]
          rcases h with h | h | h | h | ⟨s, h4, h5⟩
          · exact absurd h h1
          · exact absurd h h2
          · exact absurd (Or.inl h) h3
          · exact absurd (Or.inr h) h3
          · exact List.any_eq_true.mpr ⟨s, h4, decide_eq_true h5⟩
  unfold findConsensusMotifSubset subsetSearch
  rw [this]; rfl

example : findConsensusMotifSubset ZN.zeroMem (fun _ _ l => l) sortIdx [[.fin 0, .fin 0, .fin 1], [.fin 0, .fin 0, .fin 1]] 3 3 = .error .runtimeError :=
  C56_guards _ _ _ _ _ _ (by right; right; right; left; simp)

/-- `zdist` of a flat and a non-flat window, as a best match. -/
theorem isMatch_flat (series : List (List ℝ)) (i j : Nat) (s q : List ℝ) (hs : series[i]? = some s) (hq : series[j]? = some q)
    (hl : q.length = 3) (h : ∀ b, b + 3 ≤ q.length → zdist 3 0 (seqOf s) (seqOf q) b 0 = √3) : IsMatch 3 series i 0 j (√3) := by
  refine ⟨s, q, hs, hq, ⟨0, by omega, (h 0 (by omega)).symm⟩, ?_⟩
  rintro d ⟨b, hb, rfl⟩
  exact (h b hb).ge

/-- Three equal series and a flat one. -/
def _root_.Verif.exFour : List (List ℝ) := [[0, 0, 1], [0, 0, 1], [0, 0, 1], [2, 2, 2]]

theorem flat_or_not : Flat 3 (seqOf [2, 2, 2]) 0 ∧ ¬ Flat 3 (seqOf [0, 0, 1]) 0 := by
  constructor
  · have a : mean 3 (seqOf [2, 2, 2]) 0 = 2 := by norm_num [mean, seqOf, Finset.sum_range_succ]
    have b : var 3 (seqOf [2, 2, 2]) 0 = 0 := by rw [var, a]; norm_num [seqOf, Finset.sum_range_succ]
    unfold Flat; rw [std, b]; norm_num
  · have a : mean 3 (seqOf [0, 0, 1]) 0 = 1 / 3 := by norm_num [mean, seqOf, Finset.sum_range_succ]
    have b : var 3 (seqOf [0, 0, 1]) 0 = 2 / 9 := by rw [var, a]; norm_num [seqOf, Finset.sum_range_succ]
    unfold Flat
    rw [std, b, not_le, Real.lt_sqrt (by norm_num)]
    norm_num

theorem exFour_match (i j : Nat) (hi : i < 4) (hj : j < 4) (hij : i ≠ j) : IsMatch 3 exFour i 0 j (if i = 3 ∨ j = 3 then √3 else 0) := by
  have e : (√3 : ℝ) = √(3 : Nat) := by norm_num
  split
  · rename_i h
    rcases h with rfl | rfl
    · have hq : exFour[j]? = some [0, 0, 1] := by interval_cases j <;> first | rfl | omega
      refine isMatch_flat exFour 3 j [2, 2, 2] [0, 0, 1] rfl hq rfl fun b hb => ?_
      have : b = 0 := by simpa using hb
      subst this
      rw [e]
      refine zdist_one_flat 3 (by norm_num) _ _ _ _ ?_
      exact fun h => flat_or_not.2 (h.mpr flat_or_not.1)
    · have hq : exFour[i]? = some [0, 0, 1] := by interval_cases i <;> first | rfl | omega
      refine isMatch_flat exFour i 3 [0, 0, 1] [2, 2, 2] hq rfl rfl fun b hb => ?_
      have : b = 0 := by simpa using hb
      subst this
      rw [e]
      refine zdist_one_flat 3 (by norm_num) _ _ _ _ ?_
      exact fun h => flat_or_not.2 (h.mp flat_or_not.1)
  · rename_i h
    have hs : exFour[i]? = some [0, 0, 1] := by interval_cases i <;> first | rfl | omega
    have hq : exFour[j]? = some [0, 0, 1] := by interval_cases j <;> first | rfl | omega
    exact isMatch_zero 3 _ i 0 j 0 [0, 0, 1] [0, 0, 1] hs hq (by simp) (by simp [win])

/-- For `k = 4` the code reports the radius 0 on these series, whereas every subsequence has radius `√3`. -/
theorem _root_.Verif.C56_wrong : ∃ (i a : Nat), findConsensusMotifSubset ZN.zeroMem (fun _ _ l => l) sortIdx (exFour.map (·.map .fin)) 3 4 =
    .ok ⟨.fin 0, i, a⟩ ∧ IsSub 3 exFour i a ∧ IsSubsetRadius 3 exFour 4 i a (√3) := by
  have hs : ∀ s ∈ exFour, 3 ≤ s.length := by simp [exFour]
  have hlen : exFour.length = 4 := rfl
  obtain ⟨r, i, a, h1, h2, h3, h4⟩ := C56_consulted ZN.zeroMem ZN.zeroMem_ok (fun _ _ l => l) (fun _ _ l => List.Perm.refl l) sortIdx sortIdx_ok 3 4 le_rfl
    exFour (by norm_num) (by simp [exFour]) hs
  have m1 : IsMatch 3 exFour 0 0 1 0 := by simpa using exFour_match 0 1 (by norm_num) (by norm_num) (by norm_num)
  have m2 : IsMatch 3 exFour 0 0 2 0 := by simpa using exFour_match 0 2 (by norm_num) (by norm_num) (by norm_num)
  have h5 := h4 0 0 0 ⟨_, rfl, by simp⟩ ⟨[0, 0, 0], .cons m1 (.cons m2 (.cons m2 .nil)), by simp [IsKthLargest, exFour]⟩
  have h8 : 0 ≤ r := by
    obtain ⟨ds, h6, h7, h8⟩ := h3
    have hd : ∀ x ∈ ds, 0 ≤ x := by
      intro x hx
      obtain ⟨n, hn, rfl⟩ := List.getElem_of_mem hx
      exact match_nonneg (h6.get (by rw [h6.length_eq]; exact hn) hn)
    rw [hlen] at h7 h8
    obtain ⟨x, hx, -⟩ := List.countP_pos_iff.mp (show 0 < ds.countP _ from h7)
    have h9 : ds.countP (fun x => decide (r < x)) = 0 := by omega
    rw [List.countP_eq_zero] at h9
    have := h9 x hx
    simp only [decide_eq_true_eq, not_lt] at this
    exact le_trans (hd x hx) this
  have hr : r = 0 := le_antisymm h5 h8
  subst hr
  obtain ⟨hi, ha⟩ := (sub_iff 3 exFour hs i a).mp h2
  rw [hlen] at hi
  have ha0 : a = 0 := by
    interval_cases i <;> simp [exFour] at ha <;> exact ha
  subst ha0
  refine ⟨i, 0, h1, h2, ⟨(Finset.range 4).erase i, ?_, ?_⟩, ?_⟩
  · rw [Finset.card_erase_of_mem (by simpa using hi)]; rfl
  · intro j hj
    rw [Finset.mem_erase, Finset.mem_range] at hj
    refine ⟨hj.2, hj.1, _, ?_, exFour_match i j hi hj.2 hj.1.symm⟩
    split
    · exact le_rfl
    · exact Real.sqrt_nonneg _
  · rintro r ⟨J, g1, g2⟩
    have hJ : J = (Finset.range 4).erase i := by
      refine Finset.eq_of_subset_of_card_le (fun j hj => ?_) ?_
      · rw [Finset.mem_erase, Finset.mem_range]
        exact ⟨(g2 j hj).2.1, (g2 j hj).1⟩
      · rw [g1, Finset.card_erase_of_mem (by simpa using hi)]; rfl
    obtain ⟨j, hj, hij, h3⟩ : ∃ j, j < 4 ∧ i ≠ j ∧ (i = 3 ∨ j = 3) := by
      by_cases h : i = 3
      · exact ⟨0, by norm_num, by omega, Or.inl h⟩
      · exact ⟨3, by norm_num, h, Or.inr rfl⟩
    obtain ⟨-, -, x, g3, g4⟩ := g2 j (by rw [hJ, Finset.mem_erase, Finset.mem_range]; exact ⟨hij.symm, hj⟩)
    have := exFour_match i j hi hj hij
    rw [if_pos h3] at this
    rwa [g4.unique this] at g3

/-- So C56 does not hold for all `k`. -/
theorem _root_.Verif.C56_negation : ¬ ∀ (mem : ZN.Mem) (shuffle : Nat → Nat → List Int → List Int) (argsort : List (Fl ℝ) → List Nat) (m k : Nat)
    (series : List (List ℝ)) (r : ℝ) (i a : Nat), mem.Ok → (∀ i t l, (shuffle i t l).Perm l) → (∀ l, IsArgsort l (argsort l)) → 3 ≤ m → 2 ≤ k →
    k ≤ series.length → (∀ s ∈ series, m ≤ s.length) → findConsensusMotifSubset mem shuffle argsort (series.map (·.map .fin)) m k = .ok ⟨.fin r, i, a⟩ →
    IsSubsetRadius m series k i a r := by
  intro h
  obtain ⟨i, a, h1, -, h2⟩ := C56_wrong
  have := h ZN.zeroMem (fun _ _ l => l) sortIdx 3 4 exFour 0 i a ZN.zeroMem_ok (fun _ _ l => List.Perm.refl l) sortIdx_ok le_rfl (by norm_num)
    (by simp [exFour]) (by simp [exFour]) h1
  have e := h2.unique this
  rw [Real.sqrt_eq_zero (by norm_num)] at e
  norm_num at e

/-- A case of `C56_partial`: with `k = 3`, the motif of the first three series is found and the flat one is left out. -/
example : ∃ i a : Nat, findConsensusMotifSubset ZN.zeroMem (fun _ _ l => l) sortIdx (exFour.map (·.map .fin)) 3 3 = .ok ⟨.fin 0, i, a⟩ := by
  have hs : ∀ s ∈ exFour, 3 ≤ s.length := by simp [exFour]
  obtain ⟨r, i, a, h1, h2, h3, h4⟩ := C56_partial ZN.zeroMem ZN.zeroMem_ok (fun _ _ l => l) (fun _ _ l => List.Perm.refl l) sortIdx sortIdx_ok 3 3 le_rfl
    exFour (by norm_num) (by norm_num) (by simp [exFour]) hs
  obtain ⟨r0, g1, g2⟩ := C56_radius_exists 3 3 exFour (by norm_num) (by simp [exFour]) hs i a h2
  obtain ⟨r1, g3, g4⟩ := C56_radius_exists 3 3 exFour (by norm_num) (by simp [exFour]) hs 0 0 ⟨_, rfl, by simp⟩
  have h5 : r1 ≤ 0 := g3.2 ⟨{1, 2}, rfl, by
    intro j hj
    have : j = 1 ∨ j = 2 := by simpa using hj
    refine ⟨by simp [exFour]; omega, by omega, 0, le_rfl, ?_⟩
    have := exFour_match 0 j (by norm_num) (by omega) (by omega)
    rwa [if_neg (by omega)] at this⟩
  have h6 := h4 0 0 r1 ⟨_, rfl, by simp⟩ g3
  have : r = 0 := le_antisymm (le_trans h6 h5) (by rw [h3.unique g1]; exact g2)
  rw [this] at h1
  exact ⟨i, a, h1⟩

end Ostinato

example := C56_repaired ZN.zeroMem ZN.zeroMem_ok (fun _ _ l => l.reverse) (fun _ _ l => List.reverse_perm l) Ostinato.sortIdx Ostinato.sortIdx_ok 3 3 le_rfl exFour (by norm_num)
  (by simp [exFour]) (by simp [exFour])

example := C56_consulted ZN.zeroMem ZN.zeroMem_ok (fun _ _ l => l.reverse) (fun _ _ l => List.reverse_perm l) Ostinato.sortIdx Ostinato.sortIdx_ok 3 3 le_rfl exFour (by norm_num)
  (by simp [exFour]) (by simp [exFour])

end Verif
