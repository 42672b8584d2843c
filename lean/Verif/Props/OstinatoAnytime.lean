import Verif.Lemmas.OstinatoAnytime

/-!
# C57: `OstinatoAnytime`
-/

namespace Verif
open Spec
namespace Ostinato
open ZN

/-! ### Pairs of series -/

theorem mem_pairs (n i j : Nat) : (i, j) ∈ pairs n ↔ i < j ∧ j < n := by
  unfold pairs
  simp only [List.mem_flatMap, List.mem_range, List.mem_map, List.mem_range', Prod.mk.injEq]
  constructor
  · rintro ⟨a, ha, b, ⟨c, hc, rfl⟩, rfl, rfl⟩
    omega
  · rintro ⟨h1, h2⟩
    exact ⟨i, by omega, j, ⟨j - (i + 1), by omega, by omega⟩, rfl, rfl⟩

theorem pairs_nodup (n : Nat) : (pairs n).Nodup := by
  unfold pairs
  rw [List.nodup_flatMap]
  constructor
  · intro i _
    exact (List.nodup_range' ..).map fun a b h => by simpa using h
  · refine List.Pairwise.imp ?_ (List.nodup_range (n := n))
    intro a b hab
    simp only [Function.onFun, List.disjoint_left, List.mem_map]
    rintro x ⟨c, -, rfl⟩ ⟨d, -, h⟩
    simp only [Prod.mk.injEq] at h
    exact hab h.1.symm

/-- The other series with which series `x` is paired. -/
def partners (ps : List (Nat × Nat)) (x : Nat) : List Nat :=
  ps.flatMap fun y => (if y.2 = x then [y.1] else []) ++ (if y.1 = x then [y.2] else [])

/-- The references kept for series `x`, the numbers of the calculators starting at `t`. -/
def refs (ps : List (Nat × Nat)) (t : Nat) (x : Nat) : List (Nat × Nat) :=
  (ps.zipIdx t).flatMap fun y => (if y.1.2 = x then [(y.2, 0)] else []) ++ (if y.1.1 = x then [(y.2, 1)] else [])

theorem mem_partners (n x : Nat) (hx : x < n) (j : Nat) : j ∈ partners (pairs n) x ↔ j < n ∧ j ≠ x := by
  unfold partners
  simp only [List.mem_flatMap, List.mem_append]
  constructor
  · rintro ⟨⟨a, b⟩, hab, h⟩
    rw [mem_pairs] at hab
    rcases h with h | h <;> split at h <;> simp at h <;> simp only at * <;> omega
  · rintro ⟨h1, h2⟩
    rcases Nat.lt_or_gt_of_ne h2 with h | h
    · exact ⟨(j, x), (mem_pairs _ _ _).mpr ⟨h, hx⟩, .inl (by simp)⟩
    · exact ⟨(x, j), (mem_pairs _ _ _).mpr ⟨h, h1⟩, .inr (by simp)⟩

theorem partners_nodup (n x : Nat) : (partners (pairs n) x).Nodup := by
  unfold partners
  rw [List.nodup_flatMap]
  constructor
  · rintro ⟨a, b⟩ hab
    rw [mem_pairs] at hab
    simp only
    split <;> split <;> simp <;> omega
  · refine List.Pairwise.imp_of_mem ?_ (pairs_nodup n)
    rintro ⟨a, b⟩ ⟨c, d⟩ h1 h2 hne
    rw [mem_pairs] at h1 h2
    simp only [Function.onFun, List.disjoint_left, List.mem_append]
    intro z hz hz'
    apply hne
    rcases hz with hz | hz <;> rcases hz' with hz' | hz' <;> split at hz <;> split at hz' <;> simp at hz hz' <;> simp only [Prod.mk.injEq] <;> omega

theorem partners_length (n x : Nat) (hx : x < n) : (partners (pairs n) x).length = n - 1 := by
  have h : (partners (pairs n) x).toFinset = (Finset.range n).erase x := by
    ext j; simp [mem_partners n x hx]; tauto
  rw [← List.toFinset_card_of_nodup (partners_nodup n x), h, Finset.card_erase_of_mem (by simpa using hx), Finset.card_range]

/-! ### `__init__` -/

/-- The distance of two windows. -/
noncomputable def wdist (m : Nat) (a b : List ℝ) : ℝ := zdist m 0 (seqOf a) (seqOf b) 0 0

/-- The calculator made for the query `q` and the series `s`. -/
def MadeZ (mem : ZN.Mem) (m : Nat) (s q : List ℝ) (st0 : Anytime ZN (Side ℝ) ℝ) : Prop :=
  Made (ZN.genOps mem) m s.length (some q.length) (wdist m) (fun st op => st.Valid m (some q.length) op ∧ st.Safe op)
    (fun z st => z.Base m 0 s.length (some q.length) st.s st.q ∧ z.CacheOk m s.length st) s q st0

theorem make_ok (mem : ZN.Mem) (hmem : mem.Ok) (shuffle : List Int → List Int) (hsh : ∀ l, (shuffle l).Perm l) (m : Nat) (hm : 0 < m) (s q : List ℝ)
    (hs : m ≤ s.length) (hq : m ≤ q.length) :
    ∃ st, Anytime.assemble (Side.ops (ZN.genOps mem)) (ZN.prepare mem 0) shuffle [⟨false, MP.new⟩, ⟨true, MP.new⟩] m (s.map .fin) (some (q.map .fin)) none = .ok st ∧
      MadeZ mem m s q st := by
  obtain ⟨z, h1, h2, h3⟩ := ZN.prepare_ok mem hmem 0 m hm s (some q) hs (by intro q' h; cases h; exact hq)
  obtain ⟨p, i1, -⟩ := MP.initialise_rep (K := ℝ) (q.length + 1 - m) (s.length + 1 - m)
  obtain ⟨p', i2, -⟩ := MP.initialise_rep (K := ℝ) (s.length + 1 - m) (q.length + 1 - m)
  obtain ⟨st, a1, a2⟩ := assemble_ok (Side.ops (ZN.genOps mem)) (ZN.prepare mem 0) shuffle hsh [⟨false, MP.new⟩, ⟨true, MP.new⟩]
    [⟨false, p⟩, ⟨true, p'⟩] m hm s (some q) none hs (by intro q' h; cases h; exact hq) z h1 (by simp) (by simp) (.cons (by
      simp only [Side.ops, Side.initialise, Bool.false_eq_true, if_false, Option.getD_some, i1, bind, Except.bind, pure, Except.pure]) (.cons (by
      simp only [Side.ops, Side.initialise, if_true, Option.getD_some, i2, bind, Except.bind, pure, Except.pure]) .nil))
  exact ⟨st, a1, ZN.serves mem hmem 0 m s.length (some q.length), fun d hd => ⟨hd, trivial⟩, z, p, p', a2, ⟨h2, h3⟩, i1, i2⟩

/-- The object after `__init__` has made the calculators of the pairs `ps`. -/
structure Built (mem : ZN.Mem) (m : Nat) (series : List (List ℝ)) (ps : List (Nat × Nat)) (o : Any ZN ℝ) : Prop where
  len : o.calcs.length = ps.length
  calcs : ∀ (t i j : Nat), ps[t]? = some (i, j) → ∃ st, o.calcs[t]? = some st ∧ MadeZ mem m (series.getD j []) (series.getD i []) st
  mps : o.mps = (List.range series.length).map (refs ps 0)

theorem built_step (mem : ZN.Mem) (hmem : mem.Ok) (shuffle : Nat → List Int → List Int) (hsh : ∀ t l, (shuffle t l).Perm l) (m : Nat) (hm : 0 < m)
    (series : List (List ℝ)) (hs : ∀ s ∈ series, m ≤ s.length) (ps : List (Nat × Nat)) (o : Any ZN ℝ) (h : Built mem m series ps o) (i j : Nat)
    (hi : i < series.length) (hj : j < series.length) :
    ∃ o', Any.addPair (ZN.genOps mem) (ZN.prepare mem 0) shuffle m (series.map (·.map .fin)) o (i, j) = .ok o' ∧ Built mem m series (ps ++ [(i, j)]) o' := by
  obtain ⟨st, h1, h2⟩ := make_ok mem hmem (shuffle o.calcs.length) (hsh _) m hm series[j] series[i] (hs _ (List.getElem_mem hj)) (hs _ (List.getElem_mem hi))
  have e1 : pyGet (series.map (·.map Fl.fin)) (j : Int) = .ok (series[j].map .fin) := by
    rw [pyGet_nat_ok, List.getElem?_map, List.getElem?_eq_getElem hj]; rfl
  have e2 : pyGet (series.map (·.map Fl.fin)) (i : Int) = .ok (series[i].map .fin) := by
    rw [pyGet_nat_ok, List.getElem?_map, List.getElem?_eq_getElem hi]; rfl
  refine ⟨{ calcs := o.calcs ++ [st]
            mps := (o.mps.modify j (· ++ [(o.calcs.length, 0)])).modify i (· ++ [(o.calcs.length, 1)]) }, ?_, ?_, ?_, ?_⟩
  · unfold Any.addPair
    simp only [e1, e2, h1, bind, Except.bind, pure, Except.pure]
  · simp [h.len]
  · intro t a b hab
    by_cases ht : t < ps.length
    · rw [List.getElem?_append_left ht] at hab
      obtain ⟨st', g1, g2⟩ := h.calcs t a b hab
      exact ⟨st', by rw [List.getElem?_append_left (by rw [h.len]; exact ht)]; exact g1, g2⟩
    · have : t = ps.length := by
        have := (List.getElem?_eq_some_iff.mp hab).1
        simp at this
        omega
      subst this
      simp only [List.getElem?_append_right le_rfl, Nat.sub_self, List.getElem?_cons_zero, Option.some.injEq, Prod.mk.injEq] at hab
      obtain ⟨rfl, rfl⟩ := hab
      refine ⟨st, by rw [List.getElem?_append_right (by rw [h.len]), h.len]; simp, ?_⟩
      rw [List.getD_eq_getElem?_getD, List.getD_eq_getElem?_getD, List.getElem?_eq_getElem hi, List.getElem?_eq_getElem hj]
      exact h2
  · apply List.ext_getElem?
    intro x
    rw [List.getElem?_modify, List.getElem?_modify, h.mps]
    by_cases hx : x < series.length
    · have e : refs (ps ++ [(i, j)]) 0 x = refs ps 0 x ++ ((if j = x then [(ps.length, 0)] else []) ++ (if i = x then [(ps.length, 1)] else [])) := by
        unfold refs
        rw [List.zipIdx_append, List.flatMap_append]
        simp
      simp only [List.getElem?_map, List.getElem?_range hx, Option.map_some, h.len, e]
      by_cases h1 : j = x <;> by_cases h2 : i = x <;> simp [h1, h2]
    · simp [hx]

theorem build_ok (mem : ZN.Mem) (hmem : mem.Ok) (shuffle : Nat → List Int → List Int) (hsh : ∀ t l, (shuffle t l).Perm l) (m : Nat) (hm : 0 < m)
    (series : List (List ℝ)) (hs : ∀ s ∈ series, m ≤ s.length) :
    ∃ o, Any.init mem shuffle (series.map (·.map .fin)) m = .ok o ∧ Built mem m series (pairs series.length) o := by
  have hgen : ∀ (qs ps : List (Nat × Nat)) (o : Any ZN ℝ), (∀ ij ∈ qs, ij.1 < series.length ∧ ij.2 < series.length) → Built mem m series ps o →
      ∃ o', qs.foldlM (Any.addPair (ZN.genOps mem) (ZN.prepare mem 0) shuffle m (series.map (·.map .fin))) o = .ok o' ∧ Built mem m series (ps ++ qs) o' := by
    intro qs
    induction qs with
    | nil => intro ps o _ h; exact ⟨o, rfl, by simpa using h⟩
    | cons ij qs ih =>
      intro ps o hq h
      have hij := hq ij (by simp)
      obtain ⟨o1, h1, h2⟩ := built_step mem hmem shuffle hsh m hm series hs ps o h ij.1 ij.2 hij.1 hij.2
      obtain ⟨o', h3, h4⟩ := ih (ps ++ [(ij.1, ij.2)]) o1 (fun x hx => hq x (by simp [hx])) h2
      refine ⟨o', ?_, by simpa using h4⟩
      rw [List.foldlM_cons, h1]
      exact h3
  obtain ⟨o, h1, h2⟩ := hgen (pairs series.length) [] ⟨[], List.replicate series.length []⟩ (by
    rintro ⟨i, j⟩ h
    rw [mem_pairs] at h
    simp only
    omega) ⟨rfl, by simp, by
      apply List.ext_getElem?
      intro x
      by_cases hx : x < series.length <;> simp [hx, refs]⟩
  refine ⟨o, ?_, by simpa using h2⟩
  unfold Any.init Any.initWith
  rw [List.length_map]
  exact h1

/-! ### `calculate` -/

/-- The object after some calculation: `k t` diagonals of the `t`-th calculator are done. -/
structure Reached (mem : ZN.Mem) (m : Nat) (series : List (List ℝ)) (o0 o : Any ZN ℝ) (k : Nat → Nat) : Prop where
  len : o.calcs.length = o0.calcs.length
  mps : o.mps = o0.mps
  calcs : ∀ (t i j : Nat) (st0 : Anytime ZN (Side ℝ) ℝ), (pairs series.length)[t]? = some (i, j) → o0.calcs[t]? = some st0 →
    ∃ st, o.calcs[t]? = some st ∧ CalcAt (ZN.genOps mem) (wdist m) m (series.getD j []) (series.getD i []) st0 st (k t)

variable {mem : ZN.Mem} {m : Nat} {series : List (List ℝ)} {o0 o : Any ZN ℝ}

theorem getD_len (hs : ∀ s ∈ series, m ≤ s.length) (i : Nat) (hi : i < series.length) : m ≤ (series.getD i []).length := by
  rw [List.getD_eq_getElem?_getD, List.getElem?_eq_getElem hi]
  exact hs _ (List.getElem_mem hi)

theorem reached_zero (h : Built mem m series (pairs series.length) o0) (hm : 0 < m) (hs : ∀ s ∈ series, m ≤ s.length) :
    Reached mem m series o0 o0 (fun _ => 0) := by
  refine ⟨rfl, rfl, fun t i j st0 hp h0 => ⟨st0, h0, ?_⟩⟩
  obtain ⟨st, h1, h2⟩ := h.calcs t i j hp
  rw [h0] at h1
  cases h1
  have hij := (mem_pairs _ _ _).mp (List.mem_of_getElem? hp)
  obtain ⟨st, hc⟩ := Made.calcAt h2 hm (getD_len hs j hij.2) (getD_len hs i (by omega)) 0 (by omega)
  have e := diagsDone_unique (Made.valid h2).1 (xs := []) (st1 := st) (st2 := st0) hc.done ⟨rfl, by simp [lens]⟩ (by simp)
  rwa [e] at hc

/-- A fraction that every calculator accepts. -/
def Good (p : PyNum) : Prop := ∀ total : Int, 0 ≤ total → ∃ v, ratioToInt p total total = .ok v

theorem reached_step (h : Built mem m series (pairs series.length) o0) (hm : 0 < m) (hs : ∀ s ∈ series, m ≤ s.length) {k : Nat → Nat}
    (hr : Reached mem m series o0 o k) (ints : Nat → Nat → Bool) (p : PyNum) (hp : Good p) :
    ∃ o' k', o.calculate (ZN.genOps mem) ints p = .ok o' ∧ Reached mem m series o0 o' k' ∧ (∀ t, k t ≤ k' t) ∧
      (p = .float (.fin 1) → (∀ t n, ints t n = false) → ∀ (t : Nat) (st0 : Anytime ZN (Side ℝ) ℝ), o0.calcs[t]? = some st0 → k' t = st0.order.length) := by
  have hall : ∀ (t : Nat) (st0 : Anytime ZN (Side ℝ) ℝ), o0.calcs[t]? = some st0 → ∃ i j st st' k', (pairs series.length)[t]? = some (i, j) ∧
      o.calcs[t]? = some st ∧ st.calculateDiagonals (Side.ops (ZN.genOps mem)) [0] (ints t) p = .ok st' ∧ k t ≤ k' ∧
      CalcAt (ZN.genOps mem) (wdist m) m (series.getD j []) (series.getD i []) st0 st' k' ∧
      (p = .float (.fin 1) → (∀ t n, ints t n = false) → k' = st0.order.length) := by
    intro t st0 h0
    have ht : t < (pairs series.length).length := by
      rw [← h.len]; exact (List.getElem?_eq_some_iff.mp h0).1
    obtain ⟨⟨i, j⟩, hp'⟩ : ∃ ij, (pairs series.length)[t]? = some ij := ⟨_, List.getElem?_eq_getElem ht⟩
    obtain ⟨st, h1, h2⟩ := hr.calcs t i j st0 hp' h0
    obtain ⟨st0', g1, g2⟩ := h.calcs t i j hp'
    rw [h0] at g1
    cases g1
    have hij := (mem_pairs _ _ _).mp (List.mem_of_getElem? hp')
    have htot : 0 ≤ st0.total := by rw [(Made.valid g2).1.total]; exact lens_nonneg _ _
    obtain ⟨v, hv⟩ := hp st0.total htot
    obtain ⟨st', k', s1, s2, s3, s4⟩ := h2.step g2 hm (getD_len hs j hij.2) (getD_len hs i (by omega)) (ints t) p v hv
    refine ⟨i, j, st, st', k', hp', h1, s1, s2, s3, fun hp1 hi => s4 ?_ (hi t)⟩
    subst hp1
    have := (C19_one st0.total st0.total htot le_rfl).1
    rw [hv] at this
    cases this
    rfl
  have hlen := hr.len
  choose! fi fj fst fst' fk hf using hall
  have hmap : o.calcs.zipIdx.mapM (fun x => x.1.calculateDiagonals (Side.ops (ZN.genOps mem)) [0] (ints x.2) p) =
      .ok (o0.calcs.zipIdx.map fun x => fst' x.2 x.1) := by
    rw [mapM_ok_iff, forall₂_iff_getElem?]
    refine ⟨by simp [hlen], ?_⟩
    intro t a b ha hb
    rw [List.getElem?_zipIdx] at ha
    rw [List.getElem?_map, List.getElem?_zipIdx] at hb
    cases h0 : o0.calcs[t]? with
    | none => rw [h0] at hb; cases hb
    | some st0 =>
      obtain ⟨-, h2, h3, -⟩ := hf t st0 h0
      rw [h2] at ha
      rw [h0] at hb
      simp only [Option.map_some, Option.some.injEq] at ha hb
      subst ha hb
      simpa using h3
  refine ⟨{ o with calcs := o0.calcs.zipIdx.map fun x => fst' x.2 x.1 }, fun t => (o0.calcs[t]?).elim (k t) (fk t), ?_, ⟨by simp, hr.mps, ?_⟩, ?_, ?_⟩
  · unfold Any.calculate
    simp only [hmap, bind, Except.bind, pure, Except.pure]
  · intro t i j st0 hp' h0
    obtain ⟨h1, -, -, -, h5, -⟩ := hf t st0 h0
    rw [hp'] at h1
    simp only [Option.some.injEq, Prod.mk.injEq] at h1
    obtain ⟨rfl, rfl⟩ := h1
    refine ⟨fst' t st0, by simp [List.getElem?_zipIdx, h0], ?_⟩
    simp only [h0, Option.elim_some]
    exact h5
  · intro t
    cases h0 : o0.calcs[t]? with
    | none => simp [h0]
    | some st0 => simp only [h0, Option.elim_some]; exact (hf t st0 h0).2.2.2.1
  · intro hp1 hi t st0 h0
    simp only [h0, Option.elim_some]
    exact (hf t st0 h0).2.2.2.2.2 hp1 hi

theorem reached_run (h : Built mem m series (pairs series.length) o0) (hm : 0 < m) (hs : ∀ s ∈ series, m ≤ s.length)
    (calls : List (PyNum × (Nat → Nat → Bool))) (hg : ∀ c ∈ calls, Good c.1) : ∀ (o : Any ZN ℝ) (k : Nat → Nat), Reached mem m series o0 o k →
    ∃ o' k', o.run (ZN.genOps mem) calls = .ok o' ∧ Reached mem m series o0 o' k' ∧ ∀ t, k t ≤ k' t := by
  induction calls with
  | nil => intro o k hr; exact ⟨o, k, rfl, hr, fun _ => le_rfl⟩
  | cons c calls ih =>
    intro o k hr
    obtain ⟨o1, k1, h1, h2, h3, -⟩ := reached_step h hm hs hr c.2 c.1 (hg c (by simp))
    obtain ⟨o', k', h4, h5, h6⟩ := ih (fun c hc => hg c (by simp [hc])) o1 k1 h2
    refine ⟨o', k', ?_, h5, fun t => (h3 t).trans (h6 t)⟩
    unfold Any.run at h4 ⊢
    rw [List.foldlM_cons, h1]
    exact h4

/-! ### The profiles -/

/-- The diagonals that count for series `x` compared with series `j` when `k t` of those of calculator `t` are done. -/
def Seen (o0 : Any ZN ℝ) (n : Nat) (k : Nat → Nat) (x j : Nat) (d : Int) : Prop :=
  ∃ (t : Nat) (st0 : Anytime ZN (Side ℝ) ℝ), o0.calcs[t]? = some st0 ∧
    ((pairs n)[t]? = some (j, x) ∧ d ∈ st0.order.take (k t) ∨ (pairs n)[t]? = some (x, j) ∧ -d ∈ st0.order.take (k t))

theorem seen_mono {n : Nat} {k k' : Nat → Nat} (h : ∀ t, k t ≤ k' t) (x j : Nat) (d : Int) (hd : Seen o0 n k x j d) : Seen o0 n k' x j d := by
  obtain ⟨t, st0, h1, h2⟩ := hd
  refine ⟨t, st0, h1, ?_⟩
  have := (List.take_prefix_take_left (l := st0.order) (h t)).subset
  exact h2.imp (fun h => ⟨h.1, this h.2⟩) (fun h => ⟨h.1, this h.2⟩)

/-- `V x a j` is the estimate of the best match of subsequence `a` of series `x` in series `j`. -/
structure Estimates (m : Nat) (series : List (List ℝ)) (o0 o : Any ZN ℝ) (k : Nat → Nat) (V : Nat → Nat → Nat → Fl ℝ) : Prop where
  profiles : ∀ x < series.length, (refs (pairs series.length) 0 x).mapM o.profile =
    .ok ((partners (pairs series.length) x).map fun j => (List.range ((series.getD x []).length + 1 - m)).map fun a => V x a j)
  part : ∀ x < series.length, ∀ j ∈ partners (pairs series.length) x, ∀ a < (series.getD x []).length + 1 - m,
    IsPart (fun b => zdist m 0 (seqOf (series.getD x [])) (seqOf (series.getD j [])) b a) ((series.getD j []).length + 1 - m) a
      (Seen o0 series.length k x j) (V x a j)

theorem isPart_congr {d d' : Nat → ℝ} {h c : Nat} {X X' : Int → Prop} {v : Fl ℝ} (hp : IsPart d h c X v) (hd : ∀ r, d r = d' r) (hX : ∀ e, X e ↔ X' e) :
    IsPart d' h c X' v := by
  have e1 : d = d' := funext hd
  have e2 : X = X' := funext fun e => propext (hX e)
  rwa [← e1, ← e2]

theorem estimates_exist (h : Built mem m series (pairs series.length) o0) {k : Nat → Nat} (hr : Reached mem m series o0 o k) :
    ∃ V, Estimates m series o0 o k V := by
  have huniq : ∀ {t t' : Nat} {ij : Nat × Nat}, (pairs series.length)[t]? = some ij → (pairs series.length)[t']? = some ij → t = t' := by
    intro t t' ij h1 h2
    obtain ⟨h1', e1⟩ := List.getElem?_eq_some_iff.mp h1
    obtain ⟨h2', e2⟩ := List.getElem?_eq_some_iff.mp h2
    exact (List.Nodup.getElem_inj_iff (pairs_nodup _)).mp (e1.trans e2.symm)
  -- one profile
  have hone : ∀ (t i j : Nat), (pairs series.length)[t]? = some (i, j) →
      (∃ f : Nat → Fl ℝ, o.profile (t, 0) = .ok ((List.range ((series.getD j []).length + 1 - m)).map f) ∧
        ∀ a < (series.getD j []).length + 1 - m, IsPart (fun b => zdist m 0 (seqOf (series.getD j [])) (seqOf (series.getD i [])) b a)
          ((series.getD i []).length + 1 - m) a (Seen o0 series.length k j i) (f a)) ∧
      (∃ f : Nat → Fl ℝ, o.profile (t, 1) = .ok ((List.range ((series.getD i []).length + 1 - m)).map f) ∧
        ∀ a < (series.getD i []).length + 1 - m, IsPart (fun b => zdist m 0 (seqOf (series.getD i [])) (seqOf (series.getD j [])) b a)
          ((series.getD j []).length + 1 - m) a (Seen o0 series.length k i j) (f a)) := by
    intro t i j hp
    have hij := (mem_pairs _ _ _).mp (List.mem_of_getElem? hp)
    obtain ⟨st0, h0, -⟩ := h.calcs t i j hp
    obtain ⟨st, h1, h2⟩ := hr.calcs t i j st0 hp h0
    obtain ⟨p, p', c1, ⟨c2, c3⟩, c4, c5⟩ := h2.cons
    have hprof : ∀ (b : Nat) (c : Side ℝ), st.base.cons[b]? = some (c, [0]) → o.profile (t, b) = .ok (MP.merged c.mp.left c.mp.right) := by
      intro b c hb
      unfold Any.profile
      have e1 : pyGet o.calcs ((t : Nat) : Int) = .ok st := by rw [pyGet_nat_ok]; exact h1
      have e2 : pyGet st.base.cons ((b : Nat) : Int) = .ok (c, [0]) := by rw [pyGet_nat_ok]; exact hb
      simp only [e1, e2, bind, Except.bind, pure, Except.pure]
    have hlist : ∀ (l : List (Fl ℝ)) (L : Nat), l.length = L → l = (List.range L).map fun a => l.getD a .nan := by
      intro l L hl
      apply List.ext_getElem?
      intro a
      by_cases ha : a < L
      · rw [List.getElem?_map, List.getElem?_range ha, Option.map_some, List.getD_eq_getElem?_getD, List.getElem?_eq_getElem (by omega), Option.getD_some]
      · rw [List.getElem?_eq_none (by omega), List.getElem?_eq_none (by simpa using ha)]
    constructor
    · refine ⟨fun a => (MP.merged p.left p.right).getD a .nan, ?_, ?_⟩
      · rw [hprof 0 ⟨false, p⟩ (by rw [c1]; rfl)]
        exact congrArg _ (hlist _ _ c2)
      · intro a ha
        obtain ⟨v, v1, v2⟩ := c3 a ha
        have e' : (MP.merged p.left p.right).getD a .nan = v := by rw [List.getD_eq_getElem?_getD, v1, Option.getD_some]
        simp only [e']
        refine isPart_congr v2 (fun r => by unfold wdist; rw [zdist_win]) fun e => ?_
        constructor
        · intro he
          exact ⟨t, st0, h0, .inl ⟨hp, he⟩⟩
        · rintro ⟨t', st', g1, ⟨g2, g3⟩ | ⟨g2, g3⟩⟩
          · have := huniq hp g2
            subst this
            rw [h0] at g1
            cases g1
            exact g3
          · have := (mem_pairs _ _ _).mp (List.mem_of_getElem? g2)
            omega
    · refine ⟨fun a => (MP.merged p'.left p'.right).getD a .nan, ?_, ?_⟩
      · rw [hprof 1 ⟨true, p'⟩ (by rw [c1]; rfl)]
        exact congrArg _ (hlist _ _ c4)
      · intro a ha
        obtain ⟨v, v1, v2⟩ := c5 a ha
        have e' : (MP.merged p'.left p'.right).getD a .nan = v := by rw [List.getD_eq_getElem?_getD, v1, Option.getD_some]
        simp only [e']
        refine isPart_congr v2 (fun r => by unfold wdist; rw [zdist_win, zdist_symm]) fun e => ?_
        constructor
        · intro he
          exact ⟨t, st0, h0, .inr ⟨hp, he⟩⟩
        · rintro ⟨t', st', g1, ⟨g2, g3⟩ | ⟨g2, g3⟩⟩
          · have := (mem_pairs _ _ _).mp (List.mem_of_getElem? g2)
            omega
          · have := huniq hp g2
            subst this
            rw [h0] at g1
            cases g1
            exact g3
  -- the estimate of each pair
  have hV : ∀ x j : Nat, ∃ f : Nat → Fl ℝ, ∀ (t : Nat), ((pairs series.length)[t]? = some (j, x) → o.profile (t, 0) = .ok ((List.range ((series.getD x []).length + 1 - m)).map f) ∧
        ∀ a < (series.getD x []).length + 1 - m, IsPart (fun b => zdist m 0 (seqOf (series.getD x [])) (seqOf (series.getD j [])) b a)
          ((series.getD j []).length + 1 - m) a (Seen o0 series.length k x j) (f a)) ∧
      ((pairs series.length)[t]? = some (x, j) → o.profile (t, 1) = .ok ((List.range ((series.getD x []).length + 1 - m)).map f) ∧
        ∀ a < (series.getD x []).length + 1 - m, IsPart (fun b => zdist m 0 (seqOf (series.getD x [])) (seqOf (series.getD j [])) b a)
          ((series.getD j []).length + 1 - m) a (Seen o0 series.length k x j) (f a)) := by
    intro x j
    by_cases h1 : ∃ t : Nat, (pairs series.length)[t]? = some (j, x)
    · obtain ⟨t, ht⟩ := h1
      obtain ⟨⟨f, f1, f2⟩, -⟩ := hone t j x ht
      refine ⟨f, fun t' => ⟨fun h' => ?_, fun h' => ?_⟩⟩
      · have := huniq ht h'
        subst this
        exact ⟨f1, f2⟩
      · have a1 := (mem_pairs _ _ _).mp (List.mem_of_getElem? h')
        have a2 := (mem_pairs _ _ _).mp (List.mem_of_getElem? ht)
        omega
    · by_cases h2 : ∃ t : Nat, (pairs series.length)[t]? = some (x, j)
      · obtain ⟨t, ht⟩ := h2
        obtain ⟨-, f, f1, f2⟩ := hone t x j ht
        refine ⟨f, fun t' => ⟨fun h' => absurd ⟨t', h'⟩ h1, fun h' => ?_⟩⟩
        have := huniq ht h'
        subst this
        exact ⟨f1, f2⟩
      · exact ⟨fun _ => .nan, fun t' => ⟨fun h' => absurd ⟨t', h'⟩ h1, fun h' => absurd ⟨t', h'⟩ h2⟩⟩
  choose W hW using hV
  refine ⟨fun x a j => W x j a, ?_, ?_⟩
  · intro x hx
    rw [mapM_ok_iff]
    have hgen : ∀ (ps : List (Nat × Nat)) (t : Nat), (∀ (u : Nat) (ij : Nat × Nat), ps[u]? = some ij → (pairs series.length)[t + u]? = some ij) →
        List.Forall₂ (fun ref l => o.profile ref = .ok l) (refs ps t x)
          ((partners ps x).map fun j => (List.range ((series.getD x []).length + 1 - m)).map fun a => W x j a) := by
      intro ps
      induction ps with
      | nil => intro t _; exact .nil
      | cons ij ps ih =>
        intro t ht
        obtain ⟨i, j⟩ := ij
        have h0 := ht 0 (i, j) rfl
        rw [Nat.add_zero] at h0
        rw [show refs ((i, j) :: ps) t x = ((if j = x then [(t, 0)] else []) ++ (if i = x then [(t, 1)] else [])) ++ refs ps (t + 1) x from rfl,
          show partners ((i, j) :: ps) x = ((if j = x then [i] else []) ++ (if i = x then [j] else [])) ++ partners ps x from rfl, List.map_append]
        refine List.rel_append ?_ (ih (t + 1) fun u ij hu => by
          rw [Nat.add_assoc, Nat.add_comm 1]
          exact ht (u + 1) ij hu)
        rw [List.map_append]
        refine List.rel_append ?_ ?_
        · by_cases h1 : j = x
          · subst h1
            simp only [if_true, List.map_cons, List.map_nil]
            exact .cons ((hW j i t).1 h0).1 .nil
          · simp [h1]
        · by_cases h1 : i = x
          · subst h1
            simp only [if_true, List.map_cons, List.map_nil]
            exact .cons ((hW i j t).2 h0).1 .nil
          · simp [h1]
    exact hgen (pairs series.length) 0 fun u ij hu => by rwa [Nat.zero_add]
  · intro x hx j hj a ha
    rw [mem_partners _ _ hx] at hj
    rcases Nat.lt_or_gt_of_ne hj.2 with h1 | h1
    · obtain ⟨t, ht⟩ := List.mem_iff_getElem?.mp ((mem_pairs series.length j x).mpr ⟨h1, hx⟩)
      exact ((hW x j t).1 ht).2 a ha
    · obtain ⟨t, ht⟩ := List.mem_iff_getElem?.mp ((mem_pairs series.length x j).mpr ⟨h1, hj.1⟩)
      exact ((hW x j t).2 ht).2 a ha

/-! ### Order statistics -/

section Kth
variable {K : Type} [LinearOrder K]

theorem kth_le {p : Nat} {js : List Nat} {f g : Nat → K} {r r' : K} (hfg : ∀ j ∈ js, f j ≤ g j) (h : IsKthLargest p (js.map f) r)
    (h' : IsKthLargest p (js.map g) r') : r ≤ r' := by
  by_contra hc
  rw [not_le] at hc
  have h1 : (js.map f).countP (fun x => decide (r ≤ x)) ≤ (js.map g).countP (fun x => decide (r' < x)) := by
    rw [List.countP_map, List.countP_map]
    refine List.countP_mono_left fun j hj hx => ?_
    simp only [Function.comp, decide_eq_true_eq] at hx ⊢
    exact hc.trans_le (hx.trans (hfg j hj))
  have := h.1
  have := h'.2
  omega

theorem kth_fin (p : Nat) (js : List Nat) (f : Nat → K) (r : K) :
    IsKthLargest p (js.map fun j => Fl.fin (f j)) (.fin r) ↔ IsKthLargest p (js.map f) r := by
  unfold IsKthLargest
  simp [List.countP_map, Function.comp_def]

theorem npMax_kth (l : List (Fl K)) (hne : l ≠ []) : ∃ r, npMax l = .ok r ∧ IsKthLargest 1 l r := by
  cases l with
  | nil => exact absurd rfl hne
  | cons x xs =>
    refine ⟨xs.foldl max x, rfl, ?_⟩
    have h1 : ∀ (xs : List (Fl K)) (x : Fl K), xs.foldl max x ∈ x :: xs ∧ ∀ y ∈ x :: xs, y ≤ xs.foldl max x := by
      intro xs
      induction xs with
      | nil => intro x; simp
      | cons y ys ih =>
        intro x
        obtain ⟨i1, i2⟩ := ih (max x y)
        rw [List.foldl_cons]
        have i3 := i2 (max x y) (by simp)
        constructor
        · rcases List.mem_cons.mp i1 with i1 | i1
          · rw [i1]
            rcases max_choice x y with e | e <;> rw [e] <;> simp
          · simp [i1]
        · intro z hz
          rcases List.mem_cons.mp hz with rfl | hz
          · exact (le_max_left _ _).trans i3
          · rcases List.mem_cons.mp hz with rfl | hz
            · exact (le_max_right _ _).trans i3
            · exact i2 z (by simp [hz])
    obtain ⟨h2, h3⟩ := h1 xs x
    constructor
    · exact List.countP_pos_iff.mpr ⟨_, h2, by simp⟩
    · have : (x :: xs).countP (fun y => decide (xs.foldl max x < y)) = 0 := List.countP_eq_zero.mpr fun y hy => by simpa using h3 y hy
      omega

theorem npSort_kth (l : List (Fl K)) (k : Nat) (hk : 1 ≤ k) (hkl : k ≤ l.length) :
    ∃ r, pyGet (npSort l) ((k : Int) - 1) = .ok r ∧ IsKthLargest (l.length - k + 1) l r := by
  have hp : (npSort l).Perm l := List.perm_insertionSort _ _
  have hs : (npSort l).Pairwise (· ≤ ·) := List.pairwise_insertionSort _ _
  have hlen := hp.length_eq
  set l' := npSort l with hl'
  have hk' : k - 1 < l'.length := by omega
  refine ⟨l'[k - 1], ?_, ?_⟩
  · rw [show ((k : Int) - 1) = ((k - 1 : Nat) : Int) by omega, pyGet_nat_ok]
    exact List.getElem?_eq_getElem hk'
  · refine IsKthLargest.perm hp ?_
    have hsplit : l' = l'.take (k - 1) ++ l'[k - 1] :: l'.drop k := by
      conv_lhs => rw [← List.take_append_drop (k - 1) l']
      rw [List.drop_eq_getElem_cons hk', show k - 1 + 1 = k by omega]
    set r := l'[k - 1] with hr
    have hs' := hs
    rw [hsplit, List.pairwise_append, List.pairwise_cons] at hs'
    obtain ⟨-, ⟨h1, -⟩, h2⟩ := hs'
    have hd : (l'.drop k).length = l.length - k := by rw [List.length_drop, hlen]
    constructor
    · rw [hsplit, List.countP_append, List.countP_cons]
      have : (l'.drop k).countP (fun x => decide (r ≤ x)) = (l'.drop k).length := List.countP_eq_length.mpr fun x hx => by simpa using h1 x hx
      simp only [le_refl, decide_true, if_true]
      omega
    · rw [hsplit, List.countP_append, List.countP_cons]
      have e1 : (l'.take (k - 1)).countP (fun x => decide (r < x)) = 0 := List.countP_eq_zero.mpr fun x hx => by
        simpa using h2 x hx r (by simp)
      have e2 : (l'.drop k).countP (fun x => decide (r < x)) ≤ (l'.drop k).length := List.countP_le_length
      simp only [lt_self_iff_false, decide_false, Bool.false_eq_true, if_false]
      omega

omit [LinearOrder K] in
theorem column0_ok (js : List Nat) (L : Nat) (V : Nat → Nat → Fl K) (c : Nat) (hc : c < L) :
    column0 (js.map fun j => (List.range L).map fun a => V a j) c = .ok (js.map (V c)) := by
  unfold column0
  rw [mapM_ok_iff, List.forall₂_map_left_iff, List.forall₂_map_right_iff, List.forall₂_same]
  intro j _
  rw [pyGet_nat_ok, List.getElem?_map, List.getElem?_range hc, Option.map_some]

omit [LinearOrder K] in
theorem cols_ok (L : Nat) (F : Nat → Except PyErr (Fl K)) (P : Nat → Fl K → Prop) (h : ∀ c < L, ∃ r, F c = .ok r ∧ P c r) :
    ∃ R : List (Fl K), (List.range L).mapM F = .ok R ∧ R.length = L ∧ ∀ c < L, ∃ r, R[c]? = some r ∧ P c r := by
  obtain ⟨R, h1, h2, h3⟩ := mapM_total F (fun c r => P c r) (List.range L) (fun c hc => h c (List.mem_range.mp hc))
  refine ⟨R, h1, by simpa using h2, fun c hc => ?_⟩
  obtain ⟨y, y1, y2⟩ := h3 c c (List.getElem?_range hc)
  exact ⟨y, y1, y2⟩

/-- `k_best` as the number of the largest value: `k_best = None` stands for the largest. -/
def rank (n : Nat) : Option Nat → Nat
  | none => 1
  | some k => n - k

theorem combine_ok (js : List Nat) (n : Nat) (hn : 2 ≤ n) (hjs : js.length = n - 1) (L : Nat) (V : Nat → Nat → Fl K) (kBest : Option Nat)
    (hk : ∀ k, kBest = some k → 1 ≤ k ∧ k < n) :
    ∃ R : List (Fl K), combine (kBest.map fun k : Nat => (k : Int)) (js.map fun j => (List.range L).map fun a => V a j) = .ok R ∧ R.length = L ∧
      ∀ a < L, ∃ r, R[a]? = some r ∧ IsKthLargest (rank n kBest) (js.map (V a)) r := by
  obtain ⟨j0, js', hj⟩ : ∃ j0 js', js = j0 :: js' := by
    cases js with
    | nil => simp at hjs; omega
    | cons j0 js' => exact ⟨j0, js', rfl⟩
  have hall : ∀ r : List (Fl K), r.length = L → (js.map fun j => (List.range L).map fun a => V a j).all (fun x => x.length == r.length) = true := by
    intro r hr
    simp [hr]
  cases kBest with
  | none =>
    have e : npMax0 (js.map fun j => (List.range L).map fun a => V a j) =
        (List.range L).mapM fun c => column0 (js.map fun j => (List.range L).map fun a => V a j) c >>= npMax := by
      have := hall ((List.range L).map fun a => V a j0) (by simp)
      rw [hj] at this ⊢
      rw [List.map_cons] at this ⊢
      rw [npMax0, if_pos this]
      simp
    simp only [Option.map_none, combine, e]
    refine cols_ok L _ _ fun c hc => ?_
    obtain ⟨r, h1, h2⟩ := npMax_kth (js.map (V c)) (by rw [hj]; simp)
    refine ⟨r, ?_, h2⟩
    rw [column0_ok js L V c hc]
    exact h1
  | some k =>
    have hk := hk k rfl
    have e : npSorted0 (js.map fun j => (List.range L).map fun a => V a j) k =
        (List.range L).mapM fun c => column0 (js.map fun j => (List.range L).map fun a => V a j) c >>= fun l => pyGet (npSort l) ((k : Int) - 1) := by
      have := hall ((List.range L).map fun a => V a j0) (by simp)
      have h2 : ¬ ((k : Int) - 1 < -((js.map fun j => (List.range L).map fun a => V a j).length : Int) ∨
          (((js.map fun j => (List.range L).map fun a => V a j).length : Nat) : Int) ≤ (k : Int) - 1) := by
        rw [List.length_map]
        omega
      rw [hj] at this h2 ⊢
      rw [List.map_cons] at this h2 ⊢
      rw [npSorted0, if_pos this, if_neg h2]
      simp
    simp only [Option.map_some, combine, e]
    refine cols_ok L _ _ fun c hc => ?_
    obtain ⟨r, h1, h2⟩ := npSort_kth (js.map (V c)) k hk.1 (by rw [List.length_map]; omega)
    refine ⟨r, ?_, ?_⟩
    · rw [column0_ok js L V c hc]
      exact h1
    · rw [List.length_map, hjs, show n - 1 - k + 1 = n - k by omega] at h2
      exact h2

theorem mapM_congr {α β : Type} {f g : α → Except PyErr β} : ∀ {l : List α}, (∀ x ∈ l, f x = g x) → l.mapM f = l.mapM g
  | [], _ => rfl
  | x :: l, h => by
    rw [List.mapM_cons, List.mapM_cons, h x (by simp), mapM_congr (l := l) fun y hy => h y (by simp [hy])]

theorem npSort_last (l : List (Fl K)) (hne : l ≠ []) : pyGet (npSort l) (0 - 1) = npMax l := by
  have hl : 0 < l.length := List.length_pos_iff.mpr hne
  have hp : (npSort l).length = l.length := (List.perm_insertionSort _ _).length_eq
  obtain ⟨r, h1, h2⟩ := npSort_kth l l.length hl le_rfl
  obtain ⟨r', h1', h2'⟩ := npMax_kth l hne
  rw [Nat.sub_self, Nat.zero_add] at h2
  have e : pyGet (npSort l) (0 - 1) = pyGet (npSort l) ((l.length : Int) - 1) := by
    unfold pyGet
    rw [hp]
    have : (0 : Int) - 1 < 0 := by omega
    have h3 : ¬ ((l.length : Int) - 1 < 0) := by omega
    have h4 : (l.length : Int) + (0 - 1) = l.length - 1 := by omega
    simp only [this, h3, if_true, if_false, h4]
  rw [e, h1, h1']
  have hid : ∀ l : List (Fl K), l = (List.range l.length).map fun i => l.getD i .nan := by
    intro l
    apply List.ext_getElem?
    intro i
    by_cases hi : i < l.length
    · rw [List.getElem?_map, List.getElem?_range hi, Option.map_some, List.getD_eq_getElem?_getD, List.getElem?_eq_getElem hi, Option.getD_some]
    · rw [List.getElem?_eq_none (by omega), List.getElem?_eq_none (by simpa using hi)]
  rw [hid l] at h2 h2'
  rw [le_antisymm (kth_le (fun _ _ => le_rfl) h2 h2') (kth_le (fun _ _ => le_rfl) h2' h2)]

/-- `k_best = 0` is the same as no `k_best`. -/
theorem combine_zero (js : List Nat) (hne : js ≠ []) (L : Nat) (V : Nat → Nat → Fl K) :
    combine (some 0) (js.map fun j => (List.range L).map fun a => V a j) = combine none (js.map fun j => (List.range L).map fun a => V a j) := by
  have hall : (js.map fun j => (List.range L).map fun a => V a j).all (fun x => x.length == L) = true := by simp
  have hl : 0 < js.length := List.length_pos_iff.mpr hne
  have h2 : ¬ ((0 : Int) - 1 < -((js.map fun j => (List.range L).map fun a => V a j).length : Int) ∨
      (((js.map fun j => (List.range L).map fun a => V a j).length : Nat) : Int) ≤ (0 : Int) - 1) := by
    rw [List.length_map]
    omega
  have hc : ∀ c ∈ List.range L, (column0 (js.map fun j => (List.range L).map fun a => V a j) c >>= fun l => pyGet (npSort l) (0 - 1)) =
      column0 (js.map fun j => (List.range L).map fun a => V a j) c >>= npMax := by
    intro c hc
    rw [column0_ok js L V c (List.mem_range.mp hc)]
    exact npSort_last _ (by simpa using hne)
  obtain ⟨j0, js', hj⟩ := List.exists_cons_of_ne_nil hne
  rw [hj] at hall h2 hc ⊢
  rw [List.map_cons] at hall h2 hc ⊢
  have hL : ((List.range L).map fun a => V a j0).length = L := by simp
  rw [combine, combine, npSorted0, npMax0]
  simp only [hL]
  rw [if_pos hall, if_pos hall, if_neg h2]
  exact mapM_congr hc

theorem combine_large (js : List Nat) (hne : js ≠ []) (L : Nat) (V : Nat → Nat → Fl K) (k : Int) (hk : (js.length : Int) < k) :
    combine (some k) (js.map fun j => (List.range L).map fun a => V a j) = .error .indexError := by
  have hall : (js.map fun j => (List.range L).map fun a => V a j).all (fun x => x.length == L) = true := by simp
  have h2 : ((k : Int) - 1 < -((js.map fun j => (List.range L).map fun a => V a j).length : Int) ∨
      (((js.map fun j => (List.range L).map fun a => V a j).length : Nat) : Int) ≤ k - 1) := by
    rw [List.length_map]
    omega
  obtain ⟨j0, js', hj⟩ := List.exists_cons_of_ne_nil hne
  rw [hj] at hall h2 ⊢
  rw [List.map_cons] at hall h2 ⊢
  have hL : ((List.range L).map fun a => V a j0).length = L := by simp
  rw [combine, npSorted0]
  simp only [hL]
  rw [if_pos hall, if_pos h2]

end Kth

/-! ### `get_radii` -/

theorem radii_ok (hb : Built mem m series (pairs series.length) o0) {k : Nat → Nat} (hr : Reached mem m series o0 o k) {V : Nat → Nat → Nat → Fl ℝ}
    (hV : Estimates m series o0 o k V) (hn : 2 ≤ series.length) (kBest : Option Nat) (hk : ∀ k, kBest = some k → 1 ≤ k ∧ k < series.length) :
    ∃ RR, o.getRadii (kBest.map fun k : Nat => (k : Int)) = .ok RR ∧ RR.length = series.length ∧ ∀ x < series.length, ∃ R, RR[x]? = some R ∧
      R.length = (series.getD x []).length + 1 - m ∧ ∀ a < (series.getD x []).length + 1 - m, ∃ r, R[a]? = some r ∧
        IsKthLargest (rank series.length kBest) ((partners (pairs series.length) x).map (V x a)) r := by
  have hx : ∀ x < series.length, ∃ R, ((refs (pairs series.length) 0 x).mapM o.profile >>= combine (kBest.map fun k : Nat => (k : Int))) = .ok R ∧
      R.length = (series.getD x []).length + 1 - m ∧ ∀ a < (series.getD x []).length + 1 - m, ∃ r, R[a]? = some r ∧
        IsKthLargest (rank series.length kBest) ((partners (pairs series.length) x).map (V x a)) r := by
    intro x hx
    obtain ⟨R, h1, h2, h3⟩ := combine_ok (partners (pairs series.length) x) series.length hn (partners_length _ x hx)
      ((series.getD x []).length + 1 - m) (V x) kBest hk
    refine ⟨R, ?_, h2, h3⟩
    rw [hV.profiles x hx]
    exact h1
  choose! F hF using hx
  refine ⟨(List.range series.length).map F, ?_, by simp, fun x hx => ⟨F x, by simp [hx], (hF x hx).2⟩⟩
  unfold Any.getRadii
  rw [hr.mps, hb.mps, mapM_ok_iff, List.forall₂_map_left_iff, List.forall₂_map_right_iff, List.forall₂_same]
  intro x hx
  exact (hF x (List.mem_range.mp hx)).1

/-! ### Against the specification -/

theorem match_best (hs : ∀ s ∈ series, m ≤ s.length) (x a j : Nat) (hx : x < series.length) (hj : j < series.length) :
    IsLeast {d | ∃ b, b + m ≤ (series.getD j []).length ∧ d = zdist m 0 (seqOf (series.getD x [])) (seqOf (series.getD j [])) b a}
      (bestMatch m series x a j) := by
  obtain ⟨y, hy⟩ := isMatch_exists m series hs x a j hx hj
  rw [bestMatch_eq hy]
  obtain ⟨s, q, h1, h2, h3⟩ := hy
  rw [List.getD_eq_getElem?_getD, List.getD_eq_getElem?_getD, h1, h2]
  exact h3

theorem est_upper (hs : ∀ s ∈ series, m ≤ s.length) {k : Nat → Nat} {V : Nat → Nat → Nat → Fl ℝ} (hV : Estimates m series o0 o k V) (x : Nat)
    (hx : x < series.length) (j : Nat) (hj : j ∈ partners (pairs series.length) x) (a : Nat) (ha : a < (series.getD x []).length + 1 - m) :
    .fin (bestMatch m series x a j) ≤ V x a j := by
  have h1 := match_best hs x a j hx ((mem_partners _ _ hx j).mp hj).1
  rcases (hV.part x hx j hj a ha).attained with h | ⟨r, hr, -, h⟩
  · rw [h]; exact (Fl.le_pinf_iff _).mpr (by simp)
  · rw [h, Fl.fin_le_fin]
    exact h1.2 ⟨r, by omega, rfl⟩

theorem est_mono {o' : Any ZN ℝ} {k k' : Nat → Nat} {V V' : Nat → Nat → Nat → Fl ℝ} (hV : Estimates m series o0 o k V)
    (hV' : Estimates m series o0 o' k' V') (hk : ∀ t, k t ≤ k' t) (x : Nat) (hx : x < series.length) (j : Nat)
    (hj : j ∈ partners (pairs series.length) x) (a : Nat) (ha : a < (series.getD x []).length + 1 - m) : V' x a j ≤ V x a j := by
  have h' := hV'.part x hx j hj a ha
  rcases (hV.part x hx j hj a ha).attained with h | ⟨r, hr, hX, h⟩
  · rw [h, Fl.le_pinf_iff]
    rcases h'.attained with e | ⟨_, _, _, e⟩ <;> rw [e] <;> simp
  · rw [h]
    exact h'.lower r hr (seen_mono hk x j _ hX)

theorem est_exact (hb : Built mem m series (pairs series.length) o0) (hs : ∀ s ∈ series, m ≤ s.length) {k : Nat → Nat} {V : Nat → Nat → Nat → Fl ℝ}
    (hV : Estimates m series o0 o k V) (hk : ∀ (t : Nat) (st0 : Anytime ZN (Side ℝ) ℝ), o0.calcs[t]? = some st0 → k t = st0.order.length) (x : Nat)
    (hx : x < series.length) (j : Nat) (hj : j ∈ partners (pairs series.length) x) (a : Nat) (ha : a < (series.getD x []).length + 1 - m) :
    V x a j = .fin (bestMatch m series x a j) := by
  refine le_antisymm ?_ (est_upper hs hV x hx j hj a ha)
  have hj' := (mem_partners _ _ hx j).mp hj
  obtain ⟨b, hb1, hb2⟩ := (match_best hs x a j hx hj'.1).1
  rw [hb2]
  refine (hV.part x hx j hj a ha).lower b (by omega) ?_
  have l1 := getD_len hs x hx
  have l2 := getD_len hs j hj'.1
  rcases Nat.lt_or_gt_of_ne hj'.2 with h1 | h1
  · obtain ⟨t, ht⟩ := List.mem_iff_getElem?.mp ((mem_pairs series.length j x).mpr ⟨h1, hx⟩)
    obtain ⟨st0, g1, g2⟩ := hb.calcs t j x ht
    refine ⟨t, st0, g1, .inl ⟨ht, ?_⟩⟩
    rw [hk t st0 g1, List.take_length, Made.order g2 l1 l2]
    omega
  · obtain ⟨t, ht⟩ := List.mem_iff_getElem?.mp ((mem_pairs series.length x j).mpr ⟨h1, hj'.1⟩)
    obtain ⟨st0, g1, g2⟩ := hb.calcs t x j ht
    refine ⟨t, st0, g1, .inr ⟨ht, ?_⟩⟩
    rw [hk t st0 g1, List.take_length, Made.order g2 l2 l1]
    omega

theorem kradius_iff (hs : ∀ s ∈ series, m ≤ s.length) (hn : 2 ≤ series.length) (kBest : Option Nat)
    (hk : ∀ k, kBest = some k → 1 ≤ k ∧ k < series.length) (x a : Nat) (hx : x < series.length) (r : ℝ) :
    IsKRadius m series kBest x a r ↔ IsKthLargest (rank series.length kBest) ((partners (pairs series.length) x).map (bestMatch m series x a)) r := by
  cases kBest with
  | none =>
    unfold IsKRadius rank
    simp only
    rw [← rad_iff m series hs x a hx r]
    constructor
    · rintro ⟨⟨j, ⟨h1, h2⟩, h3⟩, h4⟩
      constructor
      · rw [Nat.one_le_iff_ne_zero, ← Nat.pos_iff_ne_zero, List.countP_pos_iff]
        exact ⟨r, List.mem_map.mpr ⟨j, (mem_partners _ x hx j).mpr ⟨h1, h2⟩, h3⟩, by simp⟩
      · rw [Nat.lt_one_iff, List.countP_eq_zero]
        intro y hy
        obtain ⟨j', g1, rfl⟩ := List.mem_map.mp hy
        have := h4 ⟨j', (mem_partners _ x hx j').mp g1, rfl⟩
        simpa using this
    · rintro ⟨h1, h2⟩
      rw [Nat.one_le_iff_ne_zero, ← Nat.pos_iff_ne_zero, List.countP_pos_iff] at h1
      rw [Nat.lt_one_iff, List.countP_eq_zero] at h2
      have h3 : ∀ j, j < series.length ∧ j ≠ x → bestMatch m series x a j ≤ r := by
        intro j hj
        have := h2 _ (List.mem_map.mpr ⟨j, (mem_partners _ x hx j).mpr hj, rfl⟩)
        simpa using this
      obtain ⟨y, hy, h4⟩ := h1
      obtain ⟨j, g1, rfl⟩ := List.mem_map.mp hy
      have g1 := (mem_partners _ x hx j).mp g1
      refine ⟨⟨j, g1, le_antisymm (h3 j g1) (by simpa using h4)⟩, ?_⟩
      rintro _ ⟨j', hj', rfl⟩
      exact h3 j' hj'
  | some k =>
    have hk := hk k rfl
    have := subsetRadius_iff m series hs x a hx (partners (pairs series.length) x) (partners_nodup _ x) (mem_partners _ x hx) (k + 1) (by omega) (by omega) r
    unfold IsKRadius rank
    simp only
    rw [← this, listRadius_iff m series hs x a hx _ (fun j hj => ((mem_partners _ x hx j).mp hj).1),
      show series.length - (k + 1) + 1 = series.length - k by omega]

theorem kradius_exists (hs : ∀ s ∈ series, m ≤ s.length) (hn : 2 ≤ series.length) (kBest : Option Nat)
    (hk : ∀ k, kBest = some k → 1 ≤ k ∧ k < series.length) (x a : Nat) (hx : x < series.length) : ∃ r, IsKRadius m series kBest x a r := by
  have hl : (partners (pairs series.length) x).length = series.length - 1 := partners_length _ x hx
  obtain ⟨r, hr⟩ := kth_exists (rank series.length kBest) (by
      cases kBest with
      | none => exact Nat.one_pos
      | some k => have := hk k rfl; unfold rank; simp only; omega) ((partners (pairs series.length) x).map (bestMatch m series x a)) (by
      rw [List.length_map, hl]
      cases kBest with
      | none => unfold rank; simp only; omega
      | some k => have := hk k rfl; unfold rank; simp only; omega)
  exact ⟨r, (kradius_iff hs hn kBest hk x a hx r).mpr hr⟩

/-- Entrywise: the profiles have the right shape, one for each series and one entry for each of its subsequences, and every entry is as
`P` says. -/
def _root_.Verif.Spec.Radii (m : Nat) (series : List (List ℝ)) (RR : List (List (Fl ℝ))) (P : Nat → Nat → Fl ℝ → Prop) : Prop :=
  RR.length = series.length ∧ ∀ x s, series[x]? = some s → ∃ R, RR[x]? = some R ∧ R.length = s.length + 1 - m ∧
    ∀ a, a + m ≤ s.length → ∃ v, R[a]? = some v ∧ P x a v

/-- The fractions that `calculate` accepts: floats between 0 and 1, and ints (which count distances). -/
def _root_.Verif.Spec.Fraction : PyNum → Prop
  | .float (.fin q) => 0 ≤ q ∧ q ≤ 1
  | .int _ => True
  | _ => False

theorem good_of_fraction (p : PyNum) (h : Fraction p) : Good p := by
  intro total ht
  match p, h with
  | .float (.fin q), h =>
    obtain ⟨r, hr, -⟩ := C19_ratio q h.1 h.2 total total ht
    exact ⟨r, hr⟩
  | .int i, _ =>
    obtain ⟨r, hr, -⟩ := C19_int i total total ht
    exact ⟨r, hr⟩

section
variable (mem : ZN.Mem) (hmem : mem.Ok) (shuffle : Nat → List Int → List Int) (hsh : ∀ t l, (shuffle t l).Perm l) (m : Nat) (hm : 0 < m)
  (series : List (List ℝ)) (hs : ∀ s ∈ series, m ≤ s.length)

include hmem hsh hm hs in
/-- **C57**: an `OstinatoAnytime` can be created for any series, and calculating any fractions, each interrupted anywhere, raises
nothing. -/
theorem _root_.Verif.C57_total (calls : List (PyNum × (Nat → Nat → Bool))) (hc : ∀ c ∈ calls, Fraction c.1) :
    ∃ o o', Any.init mem shuffle (series.map (·.map .fin)) m = .ok o ∧ o.run (ZN.genOps mem) calls = .ok o' := by
  obtain ⟨o, h1, h2⟩ := build_ok mem hmem shuffle hsh m hm series hs
  obtain ⟨o', k, h3, -⟩ := reached_run h2 hm hs calls (fun c h => good_of_fraction _ (hc c h)) o _ (reached_zero h2 hm hs)
  exact ⟨o, o', h1, h3⟩

include hmem hsh hm hs in
theorem run_reached (calls : List (PyNum × (Nat → Nat → Bool))) (hc : ∀ c ∈ calls, Fraction c.1) (o o' : Any ZN ℝ)
    (ho : Any.init mem shuffle (series.map (·.map .fin)) m = .ok o) (ho' : o.run (ZN.genOps mem) calls = .ok o') :
    Built mem m series (pairs series.length) o ∧ ∃ k, Reached mem m series o o' k := by
  obtain ⟨o1, h1, h2⟩ := build_ok mem hmem shuffle hsh m hm series hs
  rw [ho] at h1
  cases h1
  obtain ⟨o1, k, h3, h4, -⟩ := reached_run h2 hm hs calls (fun c h => good_of_fraction _ (hc c h)) o _ (reached_zero h2 hm hs)
  rw [ho'] at h3
  cases h3
  exact ⟨h2, k, h4⟩

variable (hn : 2 ≤ series.length) (kBest : Option Nat) (hk : ∀ k, kBest = some k → 1 ≤ k ∧ k < series.length)

theorem getD_some {x : Nat} {s : List ℝ} (h : series[x]? = some s) : x < series.length ∧ series.getD x [] = s := by
  refine ⟨(List.getElem?_eq_some_iff.mp h).1, ?_⟩
  rw [List.getD_eq_getElem?_getD, h, Option.getD_some]

include hmem hsh hm hs hn hk in
/-- **C57**: after any amount of calculation, `get_radii` gives for each subsequence of each series a value that is at least its true
radius (with `k_best`: the radius over its `k_best` best matching series). -/
theorem _root_.Verif.C57_upper (calls : List (PyNum × (Nat → Nat → Bool))) (hc : ∀ c ∈ calls, Fraction c.1) (o o' : Any ZN ℝ)
    (ho : Any.init mem shuffle (series.map (·.map .fin)) m = .ok o) (ho' : o.run (ZN.genOps mem) calls = .ok o') :
    ∃ RR, o'.getRadii (kBest.map fun k : Nat => (k : Int)) = .ok RR ∧
      Radii m series RR fun x a v => ∃ r, IsKRadius m series kBest x a r ∧ .fin r ≤ v := by
  obtain ⟨hb, k, hr⟩ := run_reached mem hmem shuffle hsh m hm series hs calls hc o o' ho ho'
  obtain ⟨V, hV⟩ := estimates_exist hb hr
  obtain ⟨RR, h1, h2, h3⟩ := radii_ok hb hr hV hn kBest hk
  refine ⟨RR, h1, h2, fun x s hxs => ?_⟩
  obtain ⟨hx, rfl⟩ := getD_some series hxs
  obtain ⟨R, r1, r2, r3⟩ := h3 x hx
  refine ⟨R, r1, r2, fun a ha => ?_⟩
  obtain ⟨v, v1, v2⟩ := r3 a (by omega)
  obtain ⟨r, hr⟩ := kradius_exists hs hn kBest hk x a hx
  refine ⟨v, v1, r, hr, ?_⟩
  have h5 := (kth_fin _ _ _ _).mpr ((kradius_iff hs hn kBest hk x a hx r).mp hr)
  exact kth_le (fun j hj => est_upper hs hV x hx j hj a (by omega)) h5 v2

include hmem hsh hm hs hn hk in
/-- **C57**: further calculation never increases an entry of `get_radii`. -/
theorem _root_.Verif.C57_monotone (calls more : List (PyNum × (Nat → Nat → Bool))) (hc : ∀ c ∈ calls ++ more, Fraction c.1) (o o1 o2 : Any ZN ℝ)
    (ho : Any.init mem shuffle (series.map (·.map .fin)) m = .ok o) (ho1 : o.run (ZN.genOps mem) calls = .ok o1)
    (ho2 : o1.run (ZN.genOps mem) more = .ok o2) :
    ∃ RR1 RR2, o1.getRadii (kBest.map fun k : Nat => (k : Int)) = .ok RR1 ∧ o2.getRadii (kBest.map fun k : Nat => (k : Int)) = .ok RR2 ∧
      Radii m series RR1 (fun x a v1 => ∃ R2 v2, RR2[x]? = some R2 ∧ R2[a]? = some v2 ∧ v2 ≤ v1) := by
  obtain ⟨hb, k, hr⟩ := run_reached mem hmem shuffle hsh m hm series hs calls (fun c h => hc c (List.mem_append_left _ h)) o o1 ho ho1
  obtain ⟨o2', k', g1, g2, g3⟩ := reached_run hb hm hs more (fun c h => good_of_fraction _ (hc c (List.mem_append_right _ h))) o1 k hr
  rw [ho2] at g1
  cases g1
  obtain ⟨V, hV⟩ := estimates_exist hb hr
  obtain ⟨V', hV'⟩ := estimates_exist hb g2
  obtain ⟨RR, h1, h2, h3⟩ := radii_ok hb hr hV hn kBest hk
  obtain ⟨RR', h1', h2', h3'⟩ := radii_ok hb g2 hV' hn kBest hk
  refine ⟨RR, RR', h1, h1', h2, fun x s hxs => ?_⟩
  obtain ⟨hx, rfl⟩ := getD_some series hxs
  obtain ⟨R, r1, r2, r3⟩ := h3 x hx
  obtain ⟨R', r1', r2', r3'⟩ := h3' x hx
  refine ⟨R, r1, r2, fun a ha => ?_⟩
  obtain ⟨v, v1, v2⟩ := r3 a (by omega)
  obtain ⟨v', v1', v2'⟩ := r3' a (by omega)
  exact ⟨v, v1, R', v', r1', v1', kth_le (fun j hj => est_mono hV hV' g3 x hx j hj a (by omega)) v2' v2⟩

include hmem hsh hm hs hn hk in
/-- **C57**: after `calculate(1.0)`, whatever was calculated before, `get_radii` is the true radius profile. -/
theorem _root_.Verif.C57_exact (calls : List (PyNum × (Nat → Nat → Bool))) (hc : ∀ c ∈ calls, Fraction c.1) (o o1 o2 : Any ZN ℝ)
    (ho : Any.init mem shuffle (series.map (·.map .fin)) m = .ok o) (ho1 : o.run (ZN.genOps mem) calls = .ok o1)
    (ho2 : o1.calculate (ZN.genOps mem) (fun _ _ => false) (.float (.fin 1)) = .ok o2) :
    ∃ RR, o2.getRadii (kBest.map fun k : Nat => (k : Int)) = .ok RR ∧
      Radii m series RR fun x a v => ∃ r, IsKRadius m series kBest x a r ∧ v = .fin r := by
  obtain ⟨hb, k, hr⟩ := run_reached mem hmem shuffle hsh m hm series hs calls hc o o1 ho ho1
  obtain ⟨o2', k', g1, g2, g3, g4⟩ := reached_step hb hm hs hr (fun _ _ => false) (.float (.fin 1)) (good_of_fraction _ (by simp [Fraction]))
  rw [ho2] at g1
  cases g1
  obtain ⟨V, hV⟩ := estimates_exist hb g2
  obtain ⟨RR, h1, h2, h3⟩ := radii_ok hb g2 hV hn kBest hk
  refine ⟨RR, h1, h2, fun x s hxs => ?_⟩
  obtain ⟨hx, rfl⟩ := getD_some series hxs
  obtain ⟨R, r1, r2, r3⟩ := h3 x hx
  refine ⟨R, r1, r2, fun a ha => ?_⟩
  obtain ⟨v, v1, v2⟩ := r3 a (by omega)
  obtain ⟨r, hr⟩ := kradius_exists hs hn kBest hk x a hx
  refine ⟨v, v1, r, hr, ?_⟩
  have h5 := (kth_fin _ _ _ _).mpr ((kradius_iff hs hn kBest hk x a hx r).mp hr)
  have h6 := fun j hj => est_exact hb hs hV (g4 rfl fun _ _ => rfl) x hx j hj a (by omega)
  exact le_antisymm (kth_le (fun j hj => (h6 j hj).le) v2 h5) (kth_le (fun j hj => (h6 j hj).ge) h5 v2)

include hmem hsh hm hs hn in
/-- Outside these values of `k_best`: `k_best = 0` reads row -1, the largest, so it is the same as no `k_best`, and anything from the number
of series on raises. -/
theorem _root_.Verif.C57_k_best (calls : List (PyNum × (Nat → Nat → Bool))) (hc : ∀ c ∈ calls, Fraction c.1) (o o' : Any ZN ℝ)
    (ho : Any.init mem shuffle (series.map (·.map .fin)) m = .ok o) (ho' : o.run (ZN.genOps mem) calls = .ok o') :
    (∃ RR, o'.getRadii (some 0) = .ok RR ∧ o'.getRadii none = .ok RR) ∧
      ∀ k : Int, series.length ≤ k → o'.getRadii (some k) = .error .indexError := by
  obtain ⟨hb, k, hr⟩ := run_reached mem hmem shuffle hsh m hm series hs calls hc o o' ho ho'
  obtain ⟨V, hV⟩ := estimates_exist hb hr
  have hne : ∀ x < series.length, partners (pairs series.length) x ≠ [] := by
    intro x hx h
    have := partners_length series.length x hx
    rw [h] at this
    simp at this
    omega
  constructor
  · obtain ⟨RR, h1, -⟩ := radii_ok hb hr hV hn none (by simp)
    refine ⟨RR, ?_, h1⟩
    rw [← h1]
    unfold Any.getRadii
    rw [hr.mps, hb.mps]
    refine mapM_congr fun l hl => ?_
    obtain ⟨x, hx, rfl⟩ := List.mem_map.mp hl
    rw [hV.profiles x (List.mem_range.mp hx)]
    exact combine_zero _ (hne x (List.mem_range.mp hx)) _ (V x)
  · intro k hk
    unfold Any.getRadii
    rw [hr.mps, hb.mps]
    obtain ⟨n, hn'⟩ : ∃ n, series.length = n + 1 := ⟨series.length - 1, by omega⟩
    have hx : 0 < series.length := by omega
    have h0 : ((refs (pairs series.length) 0 0).mapM o'.profile >>= combine (some k)) = .error .indexError := by
      rw [hV.profiles 0 hx]
      exact combine_large _ (hne 0 hx) _ (V 0) k (by rw [partners_length _ 0 hx]; omega)
    rw [show List.range series.length = 0 :: (List.range n).map Nat.succ by rw [hn', List.range_succ_eq_map], List.map_cons, List.mapM_cons, h0]
    rfl

end

/-- A single series has nothing to compare with, and `np.max` of an empty list raises. -/
theorem _root_.Verif.C57_single (mem : ZN.Mem) (shuffle : Nat → List Int → List Int) (m : Nat) (s : List (Fl ℝ)) :
    ∃ o, Any.init mem shuffle [s] m = .ok o ∧ o.getRadii none = .error .valueError :=
  ⟨_, rfl, rfl⟩

/-- The radii of the four series. -/
theorem exFour_radius (x : Nat) (hx : x < 4) (r : ℝ) : (IsKRadius 3 exFour none x 0 r → r = √3) ∧
    (IsKRadius 3 exFour (some 2) x 0 r → r = if x = 3 then √3 else 0) := by
  have h0 : (0 : ℝ) ≤ √3 := Real.sqrt_nonneg _
  constructor
  · rintro ⟨⟨j, h1, h2, h3⟩, h4⟩
    have h1 : j < 4 := h1
    have e := h3.unique (exFour_match x j hx h1 h2.symm)
    refine le_antisymm (by rw [e]; split <;> [exact le_rfl; exact h0]) ?_
    obtain ⟨j', hj, hxj, h5⟩ : ∃ j', j' < 4 ∧ x ≠ j' ∧ (x = 3 ∨ j' = 3) := by
      by_cases h : x = 3
      · exact ⟨0, by omega, by omega, .inl h⟩
      · exact ⟨3, by omega, h, .inr rfl⟩
    have := exFour_match x j' hx hj hxj
    rw [if_pos h5] at this
    exact h4 ⟨j', hj, hxj.symm, this⟩
  · rintro ⟨⟨J, h1, h2⟩, h3⟩
    have hJ : J.card = 2 := h1
    split
    · rename_i hx3
      subst hx3
      refine le_antisymm (h3 ⟨{0, 1}, rfl, fun j hj => ?_⟩) ?_
      · have hj : j = 0 ∨ j = 1 := by simpa using hj
        have h5 : j < 4 ∧ j ≠ 3 := by omega
        have := exFour_match 3 j (by norm_num) h5.1 h5.2.symm
        rw [if_pos (.inl rfl)] at this
        exact ⟨h5.1, h5.2, _, le_rfl, this⟩
      · obtain ⟨j, hj⟩ := Finset.card_pos.mp (by omega : 0 < J.card)
        obtain ⟨h4, h5, y, h6, h7⟩ := h2 j hj
        have := h7.unique (exFour_match 3 j (by norm_num) h4 h5.symm)
        rw [if_pos (.inl rfl)] at this
        rwa [this] at h6
    · rename_i hx3
      refine le_antisymm (h3 ⟨(Finset.range 3).erase x, ?_, fun j hj => ?_⟩) ?_
      · rw [Finset.card_erase_of_mem (by rw [Finset.mem_range]; omega)]; rfl
      · rw [Finset.mem_erase, Finset.mem_range] at hj
        have := exFour_match x j hx (by omega) hj.1.symm
        rw [if_neg (by omega)] at this
        exact ⟨by simp [exFour]; omega, hj.1, _, le_rfl, this⟩
      · obtain ⟨j, hj⟩ := Finset.card_pos.mp (by omega : 0 < J.card)
        obtain ⟨h4, h5, y, h6, h7⟩ := h2 j hj
        exact (match_nonneg h7).trans h6

theorem exFour_list (RR : List (List (Fl ℝ))) (P : Nat → Nat → Fl ℝ → Prop) (w : Nat → ℝ) (h : Radii 3 exFour RR P)
    (hP : ∀ x v, x < 4 → P x 0 v → v = .fin (w x)) : RR = [[.fin (w 0)], [.fin (w 1)], [.fin (w 2)], [.fin (w 3)]] := by
  obtain ⟨h1, h2⟩ := h
  have h3 : ∀ x < 4, RR[x]? = some [.fin (w x)] := by
    intro x hx
    have hlen : exFour[x]!.length = 3 ∧ exFour[x]? = some exFour[x]! := by
      interval_cases x <;> exact ⟨rfl, rfl⟩
    obtain ⟨R, r1, r2, r3⟩ := h2 x _ hlen.2
    obtain ⟨v, v1, v2⟩ := r3 0 (by rw [hlen.1])
    rw [hlen.1] at r2
    rw [r1]
    match R, r2 with
    | [y], _ =>
      simp only [List.getElem?_cons_zero, Option.some.injEq] at v1
      rw [v1, hP x v hx v2]
  have h1 : RR.length = 4 := h1
  clear h2
  match RR, h1, h3 with
  | [a, b, c, d], _, h3 =>
    have a0 : a = _ := Option.some.inj (h3 0 (by norm_num))
    have a1 : b = _ := Option.some.inj (h3 1 (by norm_num))
    have a2 : c = _ := Option.some.inj (h3 2 (by norm_num))
    have a3 : d = _ := Option.some.inj (h3 3 (by norm_num))
    rw [a0, a1, a2, a3]

/-- A case of the above: on the four series, after `calculate(0.5)`, interrupted, and `calculate(1.0)`, the radius is `√3` everywhere, but 0
for the first three if two matches are enough. -/
example : ∃ o o1 o2, Any.init ZN.zeroMem (fun _ l => l) (exFour.map (·.map .fin)) 3 = .ok o ∧
    o.run (ZN.genOps ZN.zeroMem) [(.float (.fin (1 / 2)), fun _ n => n == 1)] = .ok o1 ∧
    o1.calculate (ZN.genOps ZN.zeroMem) (fun _ _ => false) (.float (.fin 1)) = .ok o2 ∧
    o2.getRadii none = .ok [[.fin (√3)], [.fin (√3)], [.fin (√3)], [.fin (√3)]] ∧
    o2.getRadii (some 2) = .ok [[.fin 0], [.fin 0], [.fin 0], [.fin (√3)]] := by
  have hs : ∀ s ∈ exFour, 3 ≤ s.length := by simp [exFour]
  have hc : ∀ c ∈ [((.float (.fin (1 / 2)) : PyNum), fun (_ n : Nat) => n == 1)], Fraction c.1 := by
    simp [Fraction]; norm_num
  have hc1 : ∀ c ∈ [((.float (.fin (1 / 2)) : PyNum), fun (_ n : Nat) => n == 1), (.float (.fin 1), fun _ _ => false)], Fraction c.1 := by
    simp [Fraction]; norm_num
  obtain ⟨o, o2, h1, h2⟩ := C57_total ZN.zeroMem ZN.zeroMem_ok (fun _ l => l) (fun _ l => List.Perm.refl l) 3 (by norm_num) exFour hs _ hc1
  unfold Any.run at h2
  rw [List.foldlM_cons, bind_ok_iff] at h2
  obtain ⟨o1, h3, h4⟩ := h2
  rw [List.foldlM_cons, bind_ok_iff] at h4
  obtain ⟨o2', h4, h5⟩ := h4
  cases h5
  have h3' : o.run (ZN.genOps ZN.zeroMem) [((.float (.fin (1 / 2)) : PyNum), fun (_ n : Nat) => n == 1)] = .ok o1 := by
    unfold Any.run
    rw [List.foldlM_cons, h3]
    rfl
  obtain ⟨RR, g1, g2⟩ := C57_exact ZN.zeroMem ZN.zeroMem_ok (fun _ l => l) (fun _ l => List.Perm.refl l) 3 (by norm_num) exFour hs
    (by simp [exFour]) none (by simp) _ hc o o1 o2 h1 h3' h4
  obtain ⟨RR', g1', g2'⟩ := C57_exact ZN.zeroMem ZN.zeroMem_ok (fun _ l => l) (fun _ l => List.Perm.refl l) 3 (by norm_num) exFour hs
    (by simp [exFour]) (some 2) (by simp [exFour]) _ hc o o1 o2 h1 h3' h4
  refine ⟨o, o1, o2, h1, h3', h4, ?_, ?_⟩
  · rw [show (none : Option Int) = (none : Option Nat).map fun k : Nat => (k : Int) from rfl, g1]
    rw [exFour_list RR _ (fun _ => √3) g2]
    rintro x v hx ⟨r, hr, rfl⟩
    rw [(exFour_radius x hx r).1 hr]
  · rw [show (some 2 : Option Int) = (some 2 : Option Nat).map fun k : Nat => (k : Int) from rfl, g1']
    have e := exFour_list RR' _ (fun x => if x = 3 then √3 else 0) g2' (by
      rintro x v hx ⟨r, hr, rfl⟩
      rw [(exFour_radius x hx r).2 hr])
    rw [e]
    norm_num

section
/- The objects of the example above. -/
variable (o o1 o2 : Any ZN ℝ) (h : Any.init ZN.zeroMem (fun _ l => l) (exFour.map (·.map .fin)) 3 = .ok o)
  (h1 : o.run (ZN.genOps ZN.zeroMem) [(.float (.fin (1 / 2)), fun _ n => n == 1)] = .ok o1) (h2 : o1.run (ZN.genOps ZN.zeroMem) [(.float (.fin (1 / 3)), fun _ _ => false)] = .ok o2)

example := C57_upper ZN.zeroMem ZN.zeroMem_ok (fun _ l => l) (fun _ l => List.Perm.refl l) 3 (by norm_num) exFour (by simp [exFour]) (by simp [exFour]) (some 2)
  (by simp [exFour]) [(.float (.fin (1 / 2)), fun _ n => n == 1)] (by simp [Fraction]; norm_num) o o1 h h1

example := C57_monotone ZN.zeroMem ZN.zeroMem_ok (fun _ l => l) (fun _ l => List.Perm.refl l) 3 (by norm_num) exFour (by simp [exFour]) (by simp [exFour]) none
  (by simp) [(.float (.fin (1 / 2)), fun _ n => n == 1)] [(.float (.fin (1 / 3)), fun _ _ => false)] (by simp [Fraction]; norm_num) o o1 o2 h h1 h2

example := C57_k_best ZN.zeroMem ZN.zeroMem_ok (fun _ l => l) (fun _ l => List.Perm.refl l) 3 (by norm_num) exFour (by simp [exFour]) (by simp [exFour])
  [(.float (.fin (1 / 2)), fun _ n => n == 1)] (by simp [Fraction]; norm_num) o o1 h h1
end

example := C57_single ZN.zeroMem (fun _ l => l) 3 [.fin 1, .fin 5, .fin 2, .nan]

end Ostinato
end Verif
