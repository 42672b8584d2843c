import Verif.Model.ContextManager
import Verif.Lemmas.Slices
import Verif.Lemmas.Calculator
import Mathlib.Tactic.Linarith
import Mathlib.Data.List.Perm.Basic
import Mathlib.Order.MinMax

/-!
# C50: `GeneralStaticManager`
-/

namespace Verif

/-- The ranges of an element of a context definition. -/
def Spec.rangesOf : PRange ⊕ List PRange → List PRange
  | .inl r => [r]
  | .inr rs => rs

/-- The contexts of a definition: every range of element number `i` that is not empty, with id `i`. -/
def Spec.contexts (l : List (PRange ⊕ List PRange)) : List Ctx :=
  l.zipIdx.flatMap fun x => ((Spec.rangesOf x.1).filter fun r => decide (r.start < r.stop)).map fun r => ⟨r.start, r.stop, x.2⟩

/-- A definition is valid if all its ranges have step 1 and do not start below 0. -/
def Spec.ValidRanges (l : List (PRange ⊕ List PRange)) : Prop := ∀ x ∈ l, ∀ r ∈ Spec.rangesOf x, r.step = 1 ∧ 0 ≤ r.start

/-- A context has a position in common with `[start, stop)`. -/
def Spec.Overlaps (c : Ctx) (start stop : Int) : Prop := ∃ x : Int, (c.start ≤ x ∧ x < c.stop) ∧ start ≤ x ∧ x < stop

/-- Possible results of `np.argsort` on a column of an array. -/
def Spec.IsArgsortBy (key : Ctx → Int) (l : List Ctx) (o : List Nat) : Prop :=
  o.Perm (List.range l.length) ∧ o.Pairwise fun i j => ∀ x y, l[i]? = some x → l[j]? = some y → key x ≤ key y

theorem filterEmpty_eq (l : List (Int × PRange)) : filterEmpty l = l.filter fun x => decide (x.2.start < x.2.stop) := by
  induction l with
  | nil => rfl
  | cons x l ih =>
    rw [filterEmpty, List.filter_cons]
    by_cases h : x.2.start < x.2.stop <;> simp [h, ih]

theorem enumerateFlattened_eq (l : List (PRange ⊕ List PRange)) : ∀ n : Nat,
    enumerateFlattened l n = (l.zipIdx n).flatMap fun x => (Spec.rangesOf x.1).map fun r => ((x.2 : Int), r) := by
  induction l with
  | nil => intro n; rfl
  | cons x l ih =>
    intro n
    have := ih (n + 1)
    push_cast at this
    cases x <;> simp [enumerateFlattened, this, Spec.rangesOf]

theorem ctxArray_eq (l : List (PRange ⊕ List PRange)) : ctxArray l = Spec.contexts l := by
  have := enumerateFlattened_eq l 0
  simp only [Nat.cast_zero] at this
  rw [ctxArray, filterEmpty_eq, this, Spec.contexts, List.filter_flatMap, List.map_flatMap]
  congr 1
  funext x
  rw [List.filter_map, List.map_map]
  rfl

theorem verifyRanges_ok (l : List PRange) (h : ∀ r ∈ l, r.step = 1 ∧ 0 ≤ r.start) : verifyRanges l = .ok () := by
  induction l with
  | nil => rfl
  | cons r l ih =>
    obtain ⟨h1, h2⟩ := h r (by simp)
    rw [verifyRanges, if_neg (by simp [h1]), if_neg (by omega)]
    exact ih fun r hr => h r (by simp [hr])

theorem verifyRanges_error (l : List PRange) (h : ¬ ∀ r ∈ l, r.step = 1 ∧ 0 ≤ r.start) : verifyRanges l = .error .runtimeError := by
  induction l with
  | nil => simp at h
  | cons r l ih =>
    rw [verifyRanges]
    split
    · rfl
    · split
      · rfl
      · apply ih
        intro h'
        apply h
        intro r' hr'
        rcases List.mem_cons.mp hr' with rfl | hr'
        · constructor <;> omega
        · exact h' r' hr'

theorem mem_flattened (l : List (PRange ⊕ List PRange)) (r : PRange) :
    r ∈ (enumerateFlattened l 0).map Prod.snd ↔ ∃ x ∈ l, r ∈ Spec.rangesOf x := by
  have := enumerateFlattened_eq l 0
  simp only [Nat.cast_zero] at this
  rw [this]
  simp only [List.map_flatMap, List.map_map, List.mem_flatMap, List.mem_map, Function.comp_apply, exists_eq_right]
  constructor
  · rintro ⟨⟨x, i⟩, hx, hr⟩
    exact ⟨x, List.mem_of_getElem? (List.mem_zipIdx_iff_getElem?.mp hx), hr⟩
  · rintro ⟨x, hx, hr⟩
    obtain ⟨i, hi⟩ := List.mem_iff_getElem?.mp hx
    exact ⟨(x, i), List.mem_zipIdx_iff_getElem?.mpr hi, hr⟩

theorem verify_iff (l : List (PRange ⊕ List PRange)) :
    (∀ r ∈ (enumerateFlattened l 0).map Prod.snd, r.step = 1 ∧ 0 ≤ r.start) ↔ Spec.ValidRanges l := by
  simp only [mem_flattened, Spec.ValidRanges]
  constructor
  · intro h x hx r hr; exact h r ⟨x, hx, hr⟩
  · rintro h r ⟨x, hx, hr⟩; exact h x hx r hr

/-- Selecting rows by an argsort result gives a sorted permutation. -/
theorem argsort_select (key : Ctx → Int) (l : List Ctx) (o : List Nat) (h : Spec.IsArgsortBy key l o) :
    ∃ s, o.mapM (fun i : Nat => pyGet l (i : Int)) = .ok s ∧ s.Perm l ∧ s.Pairwise fun x y => key x ≤ key y := by
  have hlt : ∀ i ∈ o, i < l.length := fun i hi => by simpa using h.1.mem_iff.mp hi
  refine ⟨o.filterMap (l[·]?), ?_, ?_, ?_⟩
  · clear h
    rw [mapM_ok_iff]
    induction o with
    | nil => exact .nil
    | cons i o ih =>
      have hi := hlt i (by simp)
      rw [List.filterMap_cons_some (b := l[i]) (by simp [hi])]
      exact .cons (by rw [pyGet_nat_ok]; simp [hi]) (ih fun j hj => hlt j (by simp [hj]))
  · have := h.1.filterMap (l[·]?)
    refine this.trans ?_
    have e : ∀ l : List Ctx, (List.range l.length).filterMap (l[·]?) = l := by
      intro l
      induction l with
      | nil => rfl
      | cons x l ih =>
        rw [List.length_cons, List.range_succ_eq_map, List.filterMap_cons_some (b := x) (by simp), List.filterMap_map]
        congr 1
    rw [e l]
  · rw [List.pairwise_filterMap]
    exact h.2.imp fun {i j} hij x hx y hy => hij x y hx hy

/-- Splitting a sorted list at the number of entries with a property that is passed down. -/
theorem sorted_split (key : Ctx → Int) (P : Ctx → Bool) : ∀ (l : List Ctx), l.Pairwise (fun x y => key x ≤ key y) →
    (∀ x y, key x ≤ key y → P y = true → P x = true) → l.take (l.filter P).length = l.filter P ∧ l.drop (l.filter P).length = l.filter fun x => !P x
  | [], _, _ => by simp
  | x :: l, h, hP => by
    rw [List.pairwise_cons] at h
    obtain ⟨i1, i2⟩ := sorted_split key P l h.2 hP
    by_cases hx : P x = true
    · simp [hx, i1, i2]
    · have : l.filter P = [] := by
        rw [List.filter_eq_nil_iff]
        intro y hy hPy
        exact hx (hP x y (h.1 y hy) hPy)
      rw [this] at i1 i2
      simp only [List.length_nil, List.drop_zero] at i2
      simp only [Bool.not_eq_true] at hx
      simp [hx, this, ← i2]

/-- What the manager holds. -/
structure StaticMgr.Inv (m : StaticMgr) (sc qc : List Ctx) : Prop where
  series : m.series = sc
  query : m.query = qc
  ne : qc ≠ []
  startPerm : m.qcStart.Perm qc
  startSorted : m.qcStart.Pairwise fun x y => x.start ≤ y.start
  stopPerm : m.qcStop.Perm qc
  stopSorted : m.qcStop.Pairwise fun x y => x.stop ≤ y.stop
  nonempty : ∀ c ∈ qc, c.start < c.stop

theorem StaticMgr.series_spec {m : StaticMgr} {sc qc : List Ctx} (h : m.Inv sc qc) (hs : sc ≠ []) (start stop : Int) :
    m.seriesContexts start stop = .ok (sc.filter fun c => decide (c.start < stop) && decide (start < c.stop)) := by
  simp only [seriesContexts, needRows, h.series, hs, if_false, bind, Except.bind]
  rfl

theorem StaticMgr.query_spec {m : StaticMgr} {sc qc : List Ctx} (h : m.Inv sc qc) (start stop : Int) :
    ∃ l, m.queryContexts start stop = .ok l ∧ l.Perm (qc.filter fun c => decide (c.start < stop) && decide (start < c.stop)) := by
  have hlen1 : m.qcStart.length = qc.length := h.startPerm.length_eq
  have hlen2 : m.qcStop.length = qc.length := h.stopPerm.length_eq
  have hpos : 0 < qc.length := List.length_pos_iff.mpr h.ne
  obtain ⟨first, hfirst⟩ : ∃ x, m.qcStart[0]? = some x := ⟨m.qcStart[0], by simp⟩
  obtain ⟨last, hlast⟩ : ∃ x, m.qcStop[qc.length - 1]? = some x := ⟨m.qcStop[qc.length - 1], by simp⟩
  have g1 : pyGet m.qcStart 0 = .ok first := (pyGet_nat_ok _ 0 _).mpr hfirst
  have g2 : pyGet m.qcStop (-1) = .ok last := by
    have e0 : ((m.qcStop.length : Int) + -1).toNat = qc.length - 1 := by omega
    unfold pyGet
    simp only [show ((-1 : Int) < 0) from by decide, if_true, e0, hlast]
    rw [if_neg (by omega)]
  have hmin : ∀ c ∈ qc, first.start ≤ c.start := by
    intro c hc
    obtain ⟨i, hi⟩ := List.mem_iff_getElem?.mp (h.startPerm.mem_iff.mpr hc)
    obtain ⟨a1, a2⟩ := List.getElem?_eq_some_iff.mp hfirst
    obtain ⟨b1, b2⟩ := List.getElem?_eq_some_iff.mp hi
    rcases Nat.eq_zero_or_pos i with rfl | hp
    · rw [a2] at b2; rw [b2]
    · have := List.pairwise_iff_getElem.mp h.startSorted 0 i a1 b1 hp
      rwa [a2, b2] at this
  have hmax : ∀ c ∈ qc, c.stop ≤ last.stop := by
    intro c hc
    obtain ⟨i, hi⟩ := List.mem_iff_getElem?.mp (h.stopPerm.mem_iff.mpr hc)
    obtain ⟨a1, a2⟩ := List.getElem?_eq_some_iff.mp hlast
    obtain ⟨b1, b2⟩ := List.getElem?_eq_some_iff.mp hi
    rcases Nat.lt_or_ge i (qc.length - 1) with hp | hp
    · have := List.pairwise_iff_getElem.mp h.stopSorted i _ b1 a1 hp
      rwa [a2, b2] at this
    · have : i = qc.length - 1 := by omega
      subst this
      rw [a2] at b2; rw [b2]
  unfold queryContexts
  simp only [g1, g2, bind, Except.bind]
  split
  · rename_i hc
    refine ⟨_, rfl, ?_⟩
    rw [h.query, List.filter_eq_self.mpr]
    intro c hm
    have := hmin c hm
    have := hmax c hm
    have := h.nonempty c hm
    simp only [Bool.and_eq_true, decide_eq_true_eq]
    omega
  · split
    · rename_i h0
      refine ⟨_, rfl, ?_⟩
      rw [pyTo_nat, (sorted_split Ctx.start _ _ h.startSorted (by simp only [decide_eq_true_eq]; intros; omega)).1, List.filter_filter]
      refine (h.startPerm.filter _).trans (List.Perm.of_eq ?_)
      apply List.filter_congr
      intro c _
      rw [h0, Bool.and_comm]
    · split
      · refine ⟨_, rfl, ?_⟩
        rw [pyFrom_nat, (sorted_split Ctx.stop _ _ h.stopSorted (by simp only [decide_eq_true_eq]; intros; omega)).2, List.filter_filter]
        refine (h.stopPerm.filter _).trans (List.Perm.of_eq ?_)
        apply List.filter_congr
        intro c _
        congr 1
        rw [← decide_not]
        apply decide_eq_decide.mpr
        omega
      · exact ⟨_, rfl, by rw [h.query]⟩

theorem contexts_nonempty (l : List (PRange ⊕ List PRange)) : ∀ c ∈ Spec.contexts l, c.start < c.stop := by
  intro c hc
  simp only [Spec.contexts, List.mem_flatMap, List.mem_map, List.mem_filter, decide_eq_true_eq] at hc
  obtain ⟨x, -, r, ⟨-, hr⟩, rfl⟩ := hc
  exact hr

theorem StaticMgr.init_inv (series : List (PRange ⊕ List PRange)) (query : Option (List (PRange ⊕ List PRange))) (hs : Spec.ValidRanges series)
    (hq : Spec.ValidRanges (query.getD series)) (hne : Spec.contexts (query.getD series) ≠ []) (o1 o2 : List Nat)
    (h1 : Spec.IsArgsortBy Ctx.start (Spec.contexts (query.getD series)) o1) (h2 : Spec.IsArgsortBy Ctx.stop (Spec.contexts (query.getD series)) o2) :
    ∃ m, StaticMgr.init series query o1 o2 = .ok m ∧ m.Inv (Spec.contexts series) (Spec.contexts (query.getD series)) := by
  obtain ⟨s1, e1, p1, q1⟩ := argsort_select _ _ _ h1
  obtain ⟨s2, e2, p2, q2⟩ := argsort_select _ _ _ h2
  refine ⟨⟨Spec.contexts series, Spec.contexts (query.getD series), s1, s2⟩, ?_, ⟨rfl, rfl, hne, p1, q1, p2, q2, contexts_nonempty _⟩⟩
  have v2 : verifyRanges (if query.isNone then [] else (enumerateFlattened (query.getD series) 0).map Prod.snd) = .ok () := by
    split
    · rfl
    · exact verifyRanges_ok _ ((verify_iff _).mpr hq)
  unfold init
  simp only [verifyRanges_ok _ ((verify_iff _).mpr hs), v2, ctxArray_eq, needRows, hne, if_false, e1, e2, bind, Except.bind]
  rfl

/-- **C50 (part).** With at least one non-empty context on each axis, `series_contexts` and `query_contexts` return for every range that is not empty
exactly the non-empty contexts that have a position in common with it, each as often as it was defined, whichever order `np.argsort` gives to equal
values. The property also speaks about empty definitions and empty ranges: see `C50_no_contexts` and `C50_empty_range`. -/
theorem C50_lookups_partial (series : List (PRange ⊕ List PRange)) (query : Option (List (PRange ⊕ List PRange))) (hs : Spec.ValidRanges series)
    (hq : Spec.ValidRanges (query.getD series)) (hsne : Spec.contexts series ≠ []) (hne : Spec.contexts (query.getD series) ≠ []) (o1 o2 : List Nat)
    (h1 : Spec.IsArgsortBy Ctx.start (Spec.contexts (query.getD series)) o1) (h2 : Spec.IsArgsortBy Ctx.stop (Spec.contexts (query.getD series)) o2) :
    ∃ m, StaticMgr.init series query o1 o2 = .ok m ∧ ∀ start stop : Int, start < stop →
      ∃ ls lq, m.seriesContexts start stop = .ok ls ∧ m.queryContexts start stop = .ok lq ∧
        (∀ c, (c ∈ ls ↔ c ∈ Spec.contexts series ∧ Spec.Overlaps c start stop) ∧ (c ∈ ls → ls.count c = (Spec.contexts series).count c)) ∧
        ∀ c, (c ∈ lq ↔ c ∈ Spec.contexts (query.getD series) ∧ Spec.Overlaps c start stop) ∧
          (c ∈ lq → lq.count c = (Spec.contexts (query.getD series)).count c) := by
  obtain ⟨m, e, hinv⟩ := StaticMgr.init_inv series query hs hq hne o1 o2 h1 h2
  refine ⟨m, e, fun start stop hlt => ?_⟩
  obtain ⟨lq, e2, hp⟩ := StaticMgr.query_spec hinv start stop
  have key : ∀ (ctxs l : List Ctx), (∀ c ∈ ctxs, c.start < c.stop) → l.Perm (ctxs.filter fun c => decide (c.start < stop) && decide (start < c.stop)) →
      ∀ c, (c ∈ l ↔ c ∈ ctxs ∧ Spec.Overlaps c start stop) ∧ (c ∈ l → l.count c = ctxs.count c) := by
    intro ctxs l hcne hperm c
    constructor
    · rw [hperm.mem_iff, List.mem_filter]
      simp only [Bool.and_eq_true, decide_eq_true_eq]
      constructor
      · rintro ⟨hm, a, b⟩
        have := hcne c hm
        exact ⟨hm, max c.start start, by omega, by omega⟩
      · rintro ⟨hm, x, hx⟩
        exact ⟨hm, by omega⟩
    · intro hm
      rw [hperm.count_eq, List.count_filter]
      exact (List.mem_filter.mp (hperm.mem_iff.mp hm)).2
  exact ⟨_, lq, StaticMgr.series_spec hinv hsne start stop, e2, key _ _ (contexts_nonempty _) (List.Perm.refl _), key _ _ (contexts_nonempty _) hp⟩

theorem contexts_case : Spec.contexts [.inl ⟨4, 9, 1⟩, .inr [⟨0, 2, 1⟩, ⟨6, 7, 1⟩], .inl ⟨3, 3, 1⟩, .inl ⟨1, 5, 1⟩] = [⟨4, 9, 0⟩, ⟨0, 2, 1⟩, ⟨6, 7, 1⟩, ⟨1, 5, 3⟩] := by decide

example := C50_lookups_partial [.inl ⟨4, 9, 1⟩, .inr [⟨0, 2, 1⟩, ⟨6, 7, 1⟩], .inl ⟨3, 3, 1⟩, .inl ⟨1, 5, 1⟩] none (by simp [Spec.ValidRanges, Spec.rangesOf])
  (by simp [Spec.ValidRanges, Spec.rangesOf]) (by decide) (by decide) [1, 3, 0, 2] [1, 3, 2, 0] ⟨by decide, by rw [Option.getD_none, contexts_case]; simp⟩ ⟨by decide, by rw [Option.getD_none, contexts_case]; simp⟩

/-- **C50, invalid ranges.** A range with a step other than 1 or a negative start, on either axis, is rejected. -/
theorem C50_invalid_ranges (series : List (PRange ⊕ List PRange)) (query : Option (List (PRange ⊕ List PRange))) (o1 o2 : List Nat)
    (h : ¬ (Spec.ValidRanges series ∧ Spec.ValidRanges (query.getD series))) : StaticMgr.init series query o1 o2 = .error .runtimeError := by
  by_cases hs : Spec.ValidRanges series
  · cases query with
    | none => exact absurd ⟨hs, hs⟩ h
    | some q =>
      have hq : ¬ Spec.ValidRanges q := fun hq => h ⟨hs, hq⟩
      have hn : ¬ ((some q : Option (List (PRange ⊕ List PRange))).isNone = true) := by simp
      unfold StaticMgr.init
      simp only [verifyRanges_ok _ ((verify_iff _).mpr hs), Option.getD_some, bind, Except.bind, hn]
      rw [if_neg (by simp), verifyRanges_error _ (fun hv => hq ((verify_iff _).mp hv))]
  · unfold StaticMgr.init
    simp only [verifyRanges_error _ (fun hv => hs ((verify_iff _).mp hv)), bind, Except.bind]

example := C50_invalid_ranges [.inl ⟨4, 9, 2⟩] none [0] [0] (by simp [Spec.ValidRanges, Spec.rangesOf])

/-- **C50 fails without contexts**: with no (non-empty) context on the query axis the constructor raises `IndexError`; with none on the series axis every
`series_contexts` call does. -/
theorem C50_no_contexts (series : List (PRange ⊕ List PRange)) (query : Option (List (PRange ⊕ List PRange))) (hs : Spec.ValidRanges series)
    (hq : Spec.ValidRanges (query.getD series)) (o1 o2 : List Nat) :
    (Spec.contexts (query.getD series) = [] → StaticMgr.init series query o1 o2 = .error .indexError) ∧
    (Spec.contexts series = [] → ∀ m, StaticMgr.init series query o1 o2 = .ok m → ∀ start stop, m.seriesContexts start stop = .error .indexError) := by
  have v2 : verifyRanges (if query.isNone then [] else (enumerateFlattened (query.getD series) 0).map Prod.snd) = .ok () := by
    split
    · rfl
    · exact verifyRanges_ok _ ((verify_iff _).mpr hq)
  constructor
  · intro h
    unfold StaticMgr.init
    simp only [verifyRanges_ok _ ((verify_iff _).mpr hs), v2, ctxArray_eq, needRows, h, if_true, bind, Except.bind]
  · intro h m hm start stop
    have hser : m.series = [] := by
      unfold StaticMgr.init at hm
      simp only [bind_ok_iff] at hm
      obtain ⟨_, -, _, -, _, -, s1, -, s2, -, hm⟩ := hm
      cases hm
      rw [ctxArray_eq, h]
    simp only [StaticMgr.seriesContexts, needRows, hser, if_true, bind, Except.bind]

example := C50_no_contexts [.inl ⟨4, 9, 1⟩] (some [.inl ⟨3, 3, 1⟩, .inr []]) (by simp [Spec.ValidRanges, Spec.rangesOf]) (by simp [Spec.ValidRanges, Spec.rangesOf]) [] []

/-- **C50 fails for empty ranges**: a context around the position is returned for `[3, 3)`. -/
theorem C50_empty_range : ∃ m, StaticMgr.init [.inl ⟨0, 5, 1⟩] none [0] [0] = .ok m ∧ m.seriesContexts 3 3 = .ok [⟨0, 5, 0⟩] ∧
    m.queryContexts 3 3 = .ok [⟨0, 5, 0⟩] ∧ ¬ Spec.Overlaps ⟨0, 5, 0⟩ 3 3 := by
  refine ⟨⟨[⟨0, 5, 0⟩], [⟨0, 5, 0⟩], [⟨0, 5, 0⟩], [⟨0, 5, 0⟩]⟩, by rfl, by decide, by decide, ?_⟩
  rintro ⟨x, h1, h2⟩
  simp only at h1
  omega

/-- C50 on nested, overlapping, unordered and empty contexts, through the second branch of `query_contexts`. -/
example : Spec.contexts [.inl ⟨4, 9, 1⟩, .inr [⟨0, 2, 1⟩, ⟨6, 7, 1⟩], .inl ⟨3, 3, 1⟩, .inl ⟨1, 5, 1⟩] =
      [⟨4, 9, 0⟩, ⟨0, 2, 1⟩, ⟨6, 7, 1⟩, ⟨1, 5, 3⟩] ∧
    ((StaticMgr.init [.inl ⟨4, 9, 1⟩, .inr [⟨0, 2, 1⟩, ⟨6, 7, 1⟩], .inl ⟨3, 3, 1⟩, .inl ⟨1, 5, 1⟩] none [1, 3, 0, 2] [1, 3, 2, 0]).bind fun m =>
      m.queryContexts 0 5) = .ok [⟨0, 2, 1⟩, ⟨1, 5, 3⟩, ⟨4, 9, 0⟩] ∧
    ((StaticMgr.init [.inl ⟨4, 9, 1⟩, .inr [⟨0, 2, 1⟩, ⟨6, 7, 1⟩], .inl ⟨3, 3, 1⟩, .inl ⟨1, 5, 1⟩] none [1, 3, 0, 2] [1, 3, 2, 0]).bind fun m =>
      m.queryContexts 5 9) = .ok [⟨6, 7, 1⟩, ⟨4, 9, 0⟩] := by decide

end Verif
