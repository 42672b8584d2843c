import Verif.Props.ValmodLists
import Verif.Props.Ostinato
import Verif.Props.Diagonals

/-!
# C58, C59: VALMOD
-/

namespace Verif
open Spec
namespace Valmod
open ZN
variable {noise : ℝ}

/-! ### One column of cached entries -/

/-- The pair of rows `q` and column `i`. -/
noncomputable abbrev D (noise : ℝ) (x : List ℝ) (m q i : Nat) : ℝ := zdist m noise (seqOf x) (seqOf x) q i

/-- The result of going through the entries `es` of column `i` at length `m`. -/
structure ScanOk (noise : ℝ) (x : List ℝ) (l b m i : Nat) (es : List Entry) (sc : Scan) : Prop where
  hit : (sc.dist = .pinf ∧ sc.entry = none) ∨ ∃ e ∈ es, FarPair x.length m b e.q i ∧ sc.dist = .fin (D noise x m e.q i) ∧ sc.entry = some (e.q, i)
  low : ∀ e ∈ es, FarPair x.length m b e.q i → sc.dist ≤ .fin (D noise x m e.q i)
  lbHit : sc.lb = .fin (-1) ∨ ∃ e ∈ es, FarPair x.length m b e.q i ∧ ∃ v, e.base = .fin v ∧ sc.lb = .fin (v / std m (seqOf x) i)
  lbLow : ∀ e ∈ es, FarPair x.length m b e.q i → ∀ v, e.base = .fin v → .fin (v / std m (seqOf x) i) ≤ sc.lb

/-- An entry before and after the update of its dot product. -/
def Upd (x : List ℝ) (b m i : Nat) (e e' : Entry) : Prop :=
  e'.q = e.q ∧ e'.s = e.s ∧ e'.base = e.base ∧ (FarPair x.length m b e.q i → e'.dot = .fin (dotAt x m e.q i))

theorem dotAt_succ (x : List ℝ) (m : Nat) (hm : 0 < m) (q i : Nat) :
    dotAt x m q i = dotAt x (m - 1) q i + seqOf x (q + m - 1) * seqOf x (i + m - 1) := by
  obtain ⟨k, rfl⟩ : ∃ k, m = k + 1 := ⟨m - 1, by omega⟩
  unfold dotAt
  rw [Finset.sum_range_succ, show k + 1 - 1 = k from rfl, show q + (k + 1) - 1 = q + k by omega, show i + (k + 1) - 1 = i + k by omega]
  ring

theorem ScanOk.skip {x : List ℝ} {l b m i : Nat} {es : List Entry} {sc : Scan} (h : ScanOk noise x l b m i es sc) (e : Entry)
    (he : ¬ FarPair x.length m b e.q i) : ScanOk noise x l b m i (es ++ [e]) sc := by
  refine ⟨?_, ?_, ?_, ?_⟩
  · rcases h.hit with h1 | ⟨e', h1, h2⟩
    · exact Or.inl h1
    · exact Or.inr ⟨e', List.mem_append_left _ h1, h2⟩
  · intro e' he' ha
    rcases List.mem_append.mp he' with h1 | h1
    · exact h.low e' h1 ha
    · rw [List.mem_singleton.mp h1] at ha
      exact absurd ha he
  · rcases h.lbHit with h1 | ⟨e', h1, h2⟩
    · exact Or.inl h1
    · exact Or.inr ⟨e', List.mem_append_left _ h1, h2⟩
  · intro e' he' ha
    rcases List.mem_append.mp he' with h1 | h1
    · exact h.lbLow e' h1 ha
    · rw [List.mem_singleton.mp h1] at ha
      exact absurd ha he

theorem ScanOk.add {x : List ℝ} {l b m i : Nat} {es : List Entry} {sc : Scan} (h : ScanOk noise x l b m i es sc) (e : Entry)
    (ha : FarPair x.length m b e.q i) (hb : e.base = .nan ∨ ∃ v, e.base = .fin v) (hs : std m (seqOf x) i ≠ 0) :
    ScanOk noise x l b m i (es ++ [e])
      { dist := if (Fl.fin (D noise x m e.q i)).ltF sc.dist then .fin (D noise x m e.q i) else sc.dist
        entry := if (Fl.fin (D noise x m e.q i)).ltF sc.dist then some (e.q, i) else sc.entry
        lb := pyMax sc.lb (Fl.div e.base (.fin (std m (seqOf x) i))) } := by
  have hd : sc.dist ≠ .nan := by
    rcases h.hit with h1 | ⟨e', -, -, h1, -⟩
    · rw [h1.1]; simp
    · rw [h1]; simp
  have hl : ∃ w, sc.lb = .fin w := by
    rcases h.lbHit with h1 | ⟨e', -, -, v, -, h1⟩ <;> exact ⟨_, h1⟩
  have hin : e ∈ es ++ [e] := by simp
  have hdiv : ∀ v, e.base = .fin v → Fl.div e.base (.fin (std m (seqOf x) i)) = .fin (v / std m (seqOf x) i) := by
    intro v hv
    rw [hv]
    simp [Fl.div, hs]
  refine ⟨?_, ?_, ?_, ?_⟩
  · by_cases hlt : (Fl.fin (D noise x m e.q i)).ltF sc.dist = true
    · simp only [hlt, if_true]
      exact Or.inr ⟨e, hin, ha, rfl, rfl⟩
    · simp only [hlt]
      rcases h.hit with h1 | ⟨e', h1, h2⟩
      · exact Or.inl h1
      · exact Or.inr ⟨e', List.mem_append_left _ h1, h2⟩
  · intro e' he' ha'
    by_cases hlt : (Fl.fin (D noise x m e.q i)).ltF sc.dist = true
    · simp only [hlt, if_true]
      rcases List.mem_append.mp he' with h1 | h1
      · exact ((Fl.ltF_iff _ _).mp hlt).1.le.trans (h.low e' h1 ha')
      · rw [List.mem_singleton.mp h1]
    · simp only [hlt]
      rcases List.mem_append.mp he' with h1 | h1
      · exact h.low e' h1 ha'
      · rw [List.mem_singleton.mp h1]
        exact (Fl.ltF_false_iff _ _ hd).mp (by simpa using hlt)
  · by_cases hlt : sc.lb.ltF (Fl.div e.base (.fin (std m (seqOf x) i))) = true
    · simp only [pyMax, hlt, if_true]
      rcases hb with hb | ⟨v, hv⟩
      · rw [hb] at hlt
        simp [Fl.div, Fl.ltF] at hlt
      · exact Or.inr ⟨e, hin, ha, v, hv, hdiv v hv⟩
    · simp only [pyMax, hlt]
      rcases h.lbHit with h1 | ⟨e', h1, h2⟩
      · exact Or.inl h1
      · exact Or.inr ⟨e', List.mem_append_left _ h1, h2⟩
  · intro e' he' ha' v hv
    by_cases hlt : sc.lb.ltF (Fl.div e.base (.fin (std m (seqOf x) i))) = true
    · simp only [pyMax, hlt, if_true]
      rcases List.mem_append.mp he' with h1 | h1
      · exact (h.lbLow e' h1 ha' v hv).trans ((Fl.ltF_iff _ _).mp hlt).1.le
      · rw [List.mem_singleton.mp h1] at hv
        rw [hdiv v hv]
    · simp only [pyMax, hlt]
      rcases List.mem_append.mp he' with h1 | h1
      · exact h.lbLow e' h1 ha' v hv
      · rw [List.mem_singleton.mp h1] at hv
        rw [hdiv v hv] at hlt
        have := (Fl.ltF_false_iff sc.lb (.fin (v / std m (seqOf x) i)) (by simp)).mp (by simpa using hlt)
        exact this

theorem ScanOk.step {x : List ℝ} {l b m i : Nat} {es : List Entry} {sc : Scan} (h : ScanOk noise x l b m i es sc) (z : ZN)
    (hz : z.Base m noise x.length none x x) (hl : 0 < l) (hlm : l < m) (hi : i + m ≤ x.length) (size : Int) (all : List Entry)
    (hall : ListAt x l b size (m - 1) i all) (e : Entry) (he : e ∈ all) :
    ∃ sc' e', sc.step z (x.map .fin) (m : Int) ((x.length : Int) - m + 1) (b : Int) i e = .ok (sc', e') ∧
      ScanOk noise x l b m i (es ++ [e]) sc' ∧ Upd x b m i e e' := by
  obtain ⟨h1, h2⟩ := hall.idx e he
  unfold Scan.step
  by_cases hfar : e.q + b < i ∨ i + b < e.q
  · have hn : ¬ |(e.q : Int) - i| ≤ b := by rw [abs_le]; omega
    rw [if_neg hn]
    by_cases hq : e.q + m ≤ x.length
    · have ha : FarPair x.length m b e.q i := ⟨hq, hi, hfar⟩
      rw [if_neg (by rw [h1]; omega)]
      have hstdl : std l (seqOf x) i ≠ 0 := fun h0 => by
        rw [hall.flat h0] at he
        simp at he
      have hstd : std m (seqOf x) i ≠ 0 := std_ne_zero_of_prefix l m hl hlm.le _ i hstdl
      have hdot := hall.dot e he hfar (by omega)
      have g1 : pyGet (x.map Fl.fin) ((e.q : Int) + m - 1) = .ok (.fin (seqOf x (e.q + m - 1))) := by
        rw [show (e.q : Int) + m - 1 = ((e.q + m - 1 : Nat) : Int) by omega, pyGet_at _ _ (.fin (seqOf x (e.q + m - 1)))]
        rw [List.getElem?_map, seqOf_getElem? _ _ (by omega)]
        rfl
      have g2 : pyGet (x.map Fl.fin) ((e.s : Int) + m - 1) = .ok (.fin (seqOf x (i + m - 1))) := by
        rw [h1, show (i : Int) + m - 1 = ((i + m - 1 : Nat) : Int) by omega, pyGet_at _ _ (.fin (seqOf x (i + m - 1)))]
        rw [List.getElem?_map, seqOf_getElem? _ _ (by omega)]
        rfl
      have g3 : Fl.add e.dot (Fl.mul (.fin (seqOf x (e.q + m - 1))) (.fin (seqOf x (i + m - 1)))) = .fin (dotAt x m e.q i) := by
        rw [hdot, dotAt_succ x m (by omega)]
        rfl
      have g4 := z.calcSingle_ok m noise x.length none x x e.q i hz hq hi (some (.fin (dotAt x m e.q i))) (Or.inr rfl)
      obtain ⟨-, s2, -⟩ := hz.sStats.at i hi
      have hbase : e.base = .nan ∨ ∃ v, e.base = .fin v := by
        rw [hall.base e he hfar]
        unfold baseOf
        split
        · exact Or.inl rfl
        · exact Or.inr ⟨_, rfl⟩
      refine ⟨_, { e with dot := .fin (dotAt x m e.q i) }, ?_, h.add e ha hbase hstd, rfl, rfl, rfl, fun _ => rfl⟩
      unfold Scan.use
      rw [g1, g2]
      simp only [bind, Except.bind]
      rw [g3, h1, g4]
      simp only
      rw [pyGet_at _ _ _ s2]
      simp only [pure, Except.pure]
    · rw [if_pos (by omega)]
      have ha : ¬ FarPair x.length m b e.q i := fun h0 => hq h0.1
      exact ⟨sc, e, rfl, h.skip e ha, rfl, rfl, rfl, fun h0 => absurd h0 ha⟩
  · rw [if_pos (by rw [abs_le]; omega)]
    have ha : ¬ FarPair x.length m b e.q i := fun h0 => hfar h0.2.2
    exact ⟨sc, e, rfl, h.skip e ha, rfl, rfl, rfl, fun h0 => absurd h0 ha⟩

theorem scan_list (x : List ℝ) (l b m i : Nat) (z : ZN) (hz : z.Base m noise x.length none x x) (hl : 0 < l) (hlm : l < m) (hi : i + m ≤ x.length)
    (size : Int) (all : List Entry) (hall : ListAt x l b size (m - 1) i all) (es : List Entry) (hsub : ∀ e ∈ es, e ∈ all) (done : List Entry)
    (sc : Scan) (h : ScanOk noise x l b m i done sc) :
    ∃ sc' es', Scan.list z (x.map .fin) (m : Int) ((x.length : Int) - m + 1) (b : Int) i sc es = .ok (sc', es') ∧
      ScanOk noise x l b m i (done ++ es) sc' ∧ (∀ e ∈ es, ∃ e' ∈ es', Upd x b m i e e') ∧ (∀ e' ∈ es', ∃ e ∈ es, Upd x b m i e e') ∧
      es'.length = es.length := by
  induction es generalizing done sc with
  | nil => exact ⟨sc, [], rfl, by simpa using h, by simp, by simp, rfl⟩
  | cons e es ih =>
    obtain ⟨sc1, e1, h1, h2, h3⟩ := h.step z hz hl hlm hi size all hall e (hsub e (by simp))
    obtain ⟨sc2, es2, h4, h5, h6, h7, h8⟩ := ih (fun e' he' => hsub e' (List.mem_cons_of_mem _ he')) (done ++ [e]) sc1 h2
    refine ⟨sc2, e1 :: es2, ?_, by simpa using h5, ?_, ?_, by simp [h8]⟩
    · rw [Scan.list, h1]
      simp only [bind, Except.bind]
      rw [h4]
      rfl
    · intro e' he'
      rcases List.mem_cons.mp he' with rfl | he'
      · exact ⟨e1, by simp, h3⟩
      · obtain ⟨e2, h8, h9⟩ := h6 e' he'
        exact ⟨e2, List.mem_cons_of_mem _ h8, h9⟩
    · intro e' he'
      rcases List.mem_cons.mp he' with rfl | he'
      · exact ⟨e, by simp, h3⟩
      · obtain ⟨e2, h8, h9⟩ := h7 e' he'
        exact ⟨e2, List.mem_cons_of_mem _ h8, h9⟩

theorem ListAt.upd {x : List ℝ} {l b m i : Nat} {size : Int} {es es' : List Entry} (h : ListAt x l b size (m - 1) i es) (hi : i + m ≤ x.length)
    (h1 : ∀ e ∈ es, ∃ e' ∈ es', Upd x b m i e e') (h2 : ∀ e' ∈ es', ∃ e ∈ es, Upd x b m i e e') (h3 : es'.length = es.length) : ListAt x l b size m i es' := by
  refine ⟨?_, ?_, ?_, ?_, ?_, ?_, by rw [h3]; exact h.count, ?_⟩
  · intro h0
    rw [List.eq_nil_iff_forall_not_mem]
    intro e' he'
    obtain ⟨e, he, -⟩ := h2 e' he'
    rw [h.flat h0] at he
    simp at he
  · intro e' he'
    obtain ⟨e, he, u1, u2, u3, u4⟩ := h2 e' he'
    rw [u1, u2]
    exact h.idx e he
  · intro e' he'
    obtain ⟨e, he, u1, u2, u3, u4⟩ := h2 e' he'
    rw [u1, u3]
    exact h.near e he
  · intro e' he'
    obtain ⟨e, he, u1, u2, u3, u4⟩ := h2 e' he'
    rw [u1, u3]
    exact h.base e he
  · intro e' he'
    obtain ⟨e, he, u1, u2, u3, u4⟩ := h2 e' he'
    rw [u1]
    intro h3 h4
    exact u4 ⟨h4, hi, h3⟩
  · intro h0 q hq hq0
    rcases h.rest h0 q hq hq0 with ⟨e, he, hqe⟩ | h3
    · obtain ⟨e', he', u1, -⟩ := h1 e he
      exact Or.inl ⟨e', he', by rw [u1, hqe]⟩
    · right
      intro e' he'
      obtain ⟨e, he, -, -, u3, -⟩ := h2 e' he'
      rw [u3]
      exact h3 e he
  · rw [h3]
    intro h0 h3 q hq hq0
    obtain ⟨e, he, hqe⟩ := h.all h0 h3 q hq hq0
    obtain ⟨e', he', u1, -⟩ := h1 e he
    exact ⟨e', he', by rw [u1, hqe]⟩

/-! ### What the lower bound of a column says -/

/-- A lower bound that may only be wrong about the distance 0, and then by less than 1e-6. -/
def Low (w d : ℝ) : Prop := w ≤ d ∨ (d = 0 ∧ w < 1 / 10 ^ 6)

/-- Distances below 1e-6 are 0, so the weak lower bound is good enough. -/
theorem Low.le {x : List ℝ} {m q i q' i' : Nat} {w : ℝ} (h : Low w (D noise x m q i)) (hw : D noise x m q' i' ≤ w) : D noise x m q' i' ≤ D noise x m q i := by
  rcases h with h | ⟨h1, h2⟩
  · exact hw.trans h
  · rcases zdist_gap m noise (seqOf x) (seqOf x) q' i' with h3 | h3
    · have : D noise x m q' i' = 0 := h3
      rw [this]
      exact zdist_nonneg _ _ _ _ _ _
    · exact absurd (lt_of_le_of_lt (h3.trans hw) h2) (lt_irrefl _)

/-- The entries of the columns can be relied on at length `m`: everything is cached, or the lower bounds are right because there is no noise elimination and nothing is
nearly flat. -/
def Reliable (noise : ℝ) (x : List ℝ) (l : Nat) (size : Int) (m : Nat) : Prop := (x.length : Int) + 1 - l ≤ size ∨ (noise = 0 ∧ NoNearlyFlat x m)

theorem Reliable.mono {x : List ℝ} {l l' : Nat} {size : Int} {m : Nat} (h : Reliable noise x l size m) (hl : l ≤ l') : Reliable noise x l' size m :=
  h.imp_left fun h => by omega

theorem uncached_low {x : List ℝ} {l b m i : Nat} {size : Int} {es : List Entry} (h : ListAt x l b size (m - 1) i es) (hl : 0 < l) (hlm : l < m)
    (hrel : Reliable noise x l size m) (q : Nat) (hq : FarPair x.length m b q i) (hq0 : std l (seqOf x) q ≠ 0) (e : Entry) (he : e ∈ es)
    (v : ℝ) (hv : e.base = .fin v) : (∃ e ∈ es, e.q = q) ∨ Low (v / std m (seqOf x) i) (D noise x m q i) := by
  have hi0 : std l (seqOf x) i ≠ 0 := fun h0 => by
    rw [h.flat h0] at he
    simp at he
  have hq' : FarPair x.length l b q i := ⟨by have := hq.1; omega, by have := hq.2.1; omega, hq.2.2⟩
  rcases hrel with hrel | hrel
  · exact Or.inl (h.all (.inr hrel) hi0 q hq' hq0)
  rcases h.rest hi0 q hq' hq0 with h1 | h1
  · exact Or.inl h1
  · right
    have h2 := h1 e he
    rw [hv, Fl.fin_le_fin] at h2
    have h3 : v / std m (seqOf x) i ≤ boundBase l (seqOf x) (seqOf x) q i / std m (seqOf x) i :=
      div_le_div_of_nonneg_right h2 (std_nonneg _ _ _)
    obtain ⟨rfl, hflat⟩ := hrel
    rcases bound_zdist l m hl hlm.le (seqOf x) (seqOf x) q i hi0 hq0 (hflat i hq.2.1) (hflat q hq.1) with h4 | ⟨h4, h5⟩
    · exact Or.inl (h3.trans h4)
    · exact Or.inr ⟨h4, lt_of_le_of_lt h3 h5⟩

/-- A column whose best cached distance is below the bound: this is its best distance (rows constant at length `l` aside). -/
theorem ScanOk.pruned {x : List ℝ} {l b m i : Nat} {size : Int} {es : List Entry} {sc : Scan} (h : ScanOk noise x l b m i es sc)
    (hall : ListAt x l b size (m - 1) i es) (hl : 0 < l) (hlm : l < m) (hrel : Reliable noise x l size m) (hlt : sc.dist.ltF sc.lb = true) :
    std l (seqOf x) i ≠ 0 ∧ (∃ q, FarPair x.length m b q i ∧ sc.dist = .fin (D noise x m q i) ∧ sc.entry = some (q, i)) ∧
      ∀ q, FarPair x.length m b q i → std l (seqOf x) q ≠ 0 → sc.dist ≤ .fin (D noise x m q i) := by
  have hlt' := ((Fl.ltF_iff _ _).mp hlt).1
  obtain ⟨w, hw⟩ : ∃ w, sc.lb = .fin w := by
    rcases h.lbHit with h1 | ⟨e', -, -, v, -, h1⟩ <;> exact ⟨_, h1⟩
  rcases h.hit with h1 | ⟨e, h1, h2, h3, h4⟩
  · rw [h1.1, hw] at hlt'
    simp at hlt'
  · have hi0 : std l (seqOf x) i ≠ 0 := fun h0 => by
      rw [hall.flat h0] at h1
      simp at h1
    refine ⟨hi0, ⟨e.q, h2, h3, h4⟩, fun q hq hq0 => ?_⟩
    rw [h3] at hlt' ⊢
    rcases h.lbHit with h5 | ⟨e', h5, h6, v, h7, h8⟩
    · rw [h5, Fl.fin_lt_fin] at hlt'
      have := zdist_nonneg m noise (seqOf x) (seqOf x) e.q i
      linarith
    · rw [h8, Fl.fin_lt_fin] at hlt'
      rcases uncached_low hall hl hlm hrel q hq hq0 e' h5 v h7 with ⟨e2, h9, rfl⟩ | h9
      · have := h.low e2 h9 hq
        rwa [h3] at this
      · exact (Fl.fin_le_fin _ _).mpr (h9.le hlt'.le)

/-- A column that is not settled: its bound is a lower bound. -/
theorem ScanOk.unpruned {x : List ℝ} {l b m i : Nat} {size : Int} {es : List Entry} {sc : Scan} (h : ScanOk noise x l b m i es sc)
    (hall : ListAt x l b size (m - 1) i es) (hl : 0 < l) (hlm : l < m) (hrel : Reliable noise x l size m) (hlt : ¬ sc.dist.ltF sc.lb = true) :
    ∃ w, sc.lb = .fin w ∧ ∀ q, FarPair x.length m b q i → (std l (seqOf x) i = 0 ∨ std l (seqOf x) q ≠ 0) → Low w (D noise x m q i) := by
  rcases h.lbHit with h1 | ⟨e, h1, h2, v, h3, h4⟩
  · exact ⟨_, h1, fun q _ _ => Or.inl (by have := zdist_nonneg m noise (seqOf x) (seqOf x) q i; linarith)⟩
  · refine ⟨_, h4, fun q hq hq0 => ?_⟩
    have hi0 : std l (seqOf x) i ≠ 0 := fun h0 => by
      rw [hall.flat h0] at h1
      simp at h1
    rcases uncached_low hall hl hlm hrel q hq (hq0.resolve_left hi0) e h1 v h3 with ⟨e2, h9, rfl⟩ | h9
    · have h5 := h.low e2 h9 hq
      have h6 := (Fl.ltF_false_iff sc.dist sc.lb (by rw [h4]; simp)).mp (by simpa using hlt)
      have h7 := h6.trans h5
      rw [h4, Fl.fin_le_fin] at h7
      exact Or.inl h7
    · exact h9

/-! ### All columns -/

/-- State after the columns below `t`. -/
structure PassOk (noise : ℝ) (x : List ℝ) (l b : Nat) (size : Int) (m t : Nat) (lists0 : List (List Entry)) (p : Pass) : Prop where
  done : ListsAt x l b size m t p.lists
  todo : ∀ i, t ≤ i → p.lists[i]? = lists0[i]?
  hit : (p.best.dist = .pinf ∧ p.best.idx = none) ∨
    ∃ q i, FarPair x.length m b q i ∧ p.best.dist = .fin (D noise x m q i) ∧ p.best.idx = some (q, i)
  cover : ∀ i, i < t → (std l (seqOf x) i ≠ 0 ∧ p.best.dist ≠ .pinf ∧
      ∀ q, FarPair x.length m b q i → std l (seqOf x) q ≠ 0 → p.best.dist ≤ .fin (D noise x m q i)) ∨
    ∃ w, (i, Fl.fin w) ∈ p.invalid
  inv : ∀ c ∈ p.invalid, c.1 < t ∧ (∃ es sc, lists0[c.1]? = some es ∧ ScanOk noise x l b m c.1 es sc ∧ ¬ sc.dist.ltF sc.lb = true) ∧
    ∃ w, c.2 = .fin w ∧ ∀ q, FarPair x.length m b q c.1 → (std l (seqOf x) c.1 = 0 ∨ std l (seqOf x) q ≠ 0) → Low w (D noise x m q c.1)

theorem PassOk.column {x : List ℝ} {l b m t : Nat} {size : Int} {lists0 : List (List Entry)} {p : Pass} (h : PassOk noise x l b size m t lists0 p)
    (z : ZN) (hz : z.Base m noise x.length none x x) (hl : 0 < l) (hlm : l < m) (ht : t + m ≤ x.length) (hrel : Reliable noise x l size m)
    (h0 : ∃ es, lists0[t]? = some es ∧ ListAt x l b size (m - 1) t es) :
    ∃ p', Pass.column z (x.map .fin) (m : Int) ((x.length : Int) - m + 1) (b : Int) p t = .ok p' ∧ PassOk noise x l b size m (t + 1) lists0 p' := by
  obtain ⟨es, e1, e2⟩ := h0
  have e3 : p.lists[t]? = some es := by rw [h.todo t le_rfl, e1]
  have htl : t < p.lists.length := (List.getElem?_eq_some_iff.mp e3).1
  obtain ⟨sc, es', s1, s2, s3, s4, s6⟩ := scan_list x l b m t z hz hl hlm ht size es e2 es (fun _ h => h) [] ⟨.pinf, none, .fin (-1)⟩
    ⟨Or.inl ⟨rfl, rfl⟩, by simp, Or.inl rfl, by simp⟩
  rw [List.nil_append] at s2
  have s5 := e2.upd ht s3 s4 s6
  have hnan : p.best.dist ≠ .nan := by
    rcases h.hit with h1 | ⟨q, i, -, h1, -⟩
    · rw [h1.1]; simp
    · rw [h1]; simp
  have hlists : ∀ p' : Pass, p'.lists = p.lists → ListsAt x l b size m (t + 1) (p'.lists.set t es') ∧
      ∀ i, t + 1 ≤ i → (p'.lists.set t es')[i]? = lists0[i]? := by
    intro p' hp'
    rw [hp']
    constructor
    · intro i hi
      by_cases hit : i = t
      · subst hit
        exact ⟨es', by rw [List.getElem?_set_self htl], s5⟩
      · obtain ⟨es2, f1, f2⟩ := h.done i (by omega)
        exact ⟨es2, by rw [List.getElem?_set_ne (by omega)]; exact f1, f2⟩
    · intro i hi
      rw [List.getElem?_set_ne (by omega), h.todo i (by omega)]
  unfold Pass.column
  rw [pyGet_at _ _ _ e3]
  simp only [bind, Except.bind]
  rw [s1]
  simp only
  by_cases hlt : sc.dist.ltF sc.lb = true
  · obtain ⟨p1, ⟨q, p2, p3, p4⟩, p5⟩ := s2.pruned e2 hl hlm hrel hlt
    by_cases hb : sc.dist.ltF p.best.dist = true
    · have hb' := ((Fl.ltF_iff _ _).mp hb).1
      have hj : p.judge t sc = .ok { p with best := ⟨sc.dist, some (q, t)⟩ } := by
        unfold Pass.judge
        rw [if_pos hlt, if_pos hb, p4]
      rw [hj]
      obtain ⟨l1, l2⟩ := hlists { p with best := ⟨sc.dist, some (q, t)⟩ } rfl
      refine ⟨_, rfl, l1, l2, Or.inr ⟨q, t, p2, p3, rfl⟩, ?_, ?_⟩
      · intro i hi
        by_cases hit : i = t
        · subst hit
          exact Or.inl ⟨p1, by simp only; rw [p3]; simp, p5⟩
        · rcases h.cover i (by omega) with ⟨c1, c2, c3⟩ | h1
          · exact Or.inl ⟨c1, by simp only; rw [p3]; simp, fun q hq hq0 => hb'.le.trans (c3 q hq hq0)⟩
          · exact Or.inr h1
      · intro c hc
        obtain ⟨i1, i2⟩ := h.inv c hc
        exact ⟨by omega, i2⟩
    · have hj : p.judge t sc = .ok p := by
        unfold Pass.judge
        rw [if_pos hlt, if_neg hb]
      rw [hj]
      obtain ⟨l1, l2⟩ := hlists p rfl
      have hb' : p.best.dist ≤ sc.dist := (Fl.ltF_false_iff _ _ hnan).mp (by simpa using hb)
      refine ⟨_, rfl, l1, l2, h.hit, ?_, ?_⟩
      · intro i hi
        by_cases hit : i = t
        · subst hit
          refine Or.inl ⟨p1, ?_, fun q hq hq0 => hb'.trans (p5 q hq hq0)⟩
          intro hinf
          have hinf' : p.best.dist = .pinf := hinf
          rw [hinf', p3] at hb'
          exact absurd (lt_of_le_of_lt hb' (Fl.fin_lt_pinf _)) (lt_irrefl _)
        · exact h.cover i (by omega)
      · intro c hc
        obtain ⟨i1, i2⟩ := h.inv c hc
        exact ⟨by omega, i2⟩
  · obtain ⟨w, w1, w2⟩ := s2.unpruned e2 hl hlm hrel hlt
    have hj : p.judge t sc = .ok { p with invalid := p.invalid ++ [(t, sc.lb)] } := by
      unfold Pass.judge
      rw [if_neg hlt]
    rw [hj]
    obtain ⟨l1, l2⟩ := hlists { p with invalid := p.invalid ++ [(t, sc.lb)] } rfl
    refine ⟨_, rfl, l1, l2, h.hit, ?_, ?_⟩
    · intro i hi
      by_cases hit : i = t
      · subst hit
        exact Or.inr ⟨w, List.mem_append_right _ (by simp [w1])⟩
      · rcases h.cover i (by omega) with h1 | ⟨w', h1⟩
        · exact Or.inl h1
        · exact Or.inr ⟨w', List.mem_append_left _ h1⟩
    · intro c hc
      rcases List.mem_append.mp hc with hc | hc
      · obtain ⟨i1, i2⟩ := h.inv c hc
        exact ⟨by omega, i2⟩
      · rw [List.mem_singleton.mp hc]
        exact ⟨by simp, ⟨es, sc, e1, s2, hlt⟩, w, w1, w2⟩

theorem pass_ok (x : List ℝ) (l b m : Nat) (size : Int) (lists0 : List (List Entry)) (z : ZN) (hz : z.Base m noise x.length none x x) (hl : 0 < l)
    (hlm : l < m) (hm : m ≤ x.length) (hrel : Reliable noise x l size m) (h0 : ListsAt x l b size (m - 1) (x.length + 1 - m) lists0) :
    ∃ p, (List.range ((x.length : Int) - m + 1).toNat).foldlM (Pass.column z (x.map .fin) (m : Int) ((x.length : Int) - m + 1) (b : Int))
        ⟨lists0, ⟨.pinf, none⟩, []⟩ = .ok p ∧ PassOk noise x l b size m (x.length + 1 - m) lists0 p := by
  rw [show ((x.length : Int) - m + 1).toNat = x.length + 1 - m by omega]
  refine foldlM_range _ (fun t p => PassOk noise x l b size m t lists0 p) _ _ ?_ ?_
  · exact ⟨fun i hi => by omega, fun _ _ => rfl, Or.inl ⟨rfl, rfl⟩, fun i hi => by omega, by simp⟩
  · intro t p ht hp
    exact hp.column z hz hl hlm (by omega) hrel (h0 t ht)

/-! ### The answer for one length -/

/-- It is enough to look at the columns where the bounds mean something: pairs with a row constant at length `l` also occur with the roles of row and column
exchanged. -/
theorem motif_of_cover {x : List ℝ} {l b m : Nat} {best : Best}
    (hit : (best.dist = .pinf ∧ best.idx = none) ∨ ∃ q i, FarPair x.length m b q i ∧ best.dist = .fin (D noise x m q i) ∧ best.idx = some (q, i))
    (h : ∀ q i, FarPair x.length m b q i → (std l (seqOf x) i = 0 ∨ std l (seqOf x) q ≠ 0) → best.dist ≤ .fin (D noise x m q i)) : IsMotif noise x m b best.idx := by
  refine BestOk.motif ⟨hit, fun q i ha _ => ?_⟩
  by_cases hc : std l (seqOf x) i = 0 ∨ std l (seqOf x) q ≠ 0
  · exact h q i ha hc
  · rw [not_or, not_not] at hc
    have := h i q ⟨ha.2.1, ha.1, ha.2.2.symm⟩ (Or.inl hc.2)
    rwa [D, zdist_symm] at this

theorem le_of_low {x : List ℝ} {b m q i : Nat} {best : Best} {w : ℝ}
    (hit : (best.dist = .pinf ∧ best.idx = none) ∨ ∃ q i, FarPair x.length m b q i ∧ best.dist = .fin (D noise x m q i) ∧ best.idx = some (q, i))
    (hle : best.dist ≤ .fin w) (h : Low w (D noise x m q i)) : best.dist ≤ .fin (D noise x m q i) := by
  rcases hit with h1 | ⟨q', i', -, h1, -⟩
  · rw [h1.1] at hle
    exact absurd (lt_of_le_of_lt hle (Fl.fin_lt_pinf _)) (lt_irrefl _)
  · rw [h1, Fl.fin_le_fin] at hle ⊢
    exact h.le hle

/-- `np.min`, or something that also copes with no columns being left. -/
def MinLike (lbMin : List (Fl ℝ) → Except PyErr (Fl ℝ)) : Prop :=
  (∀ L, L ≠ [] → lbMin L = npMin L) ∧ ((∃ e, lbMin [] = .error e) ∨ lbMin [] = .ok .pinf)

theorem accept_ok {x : List ℝ} {l b m : Nat} {size : Int} {lists0 : List (List Entry)} {p : Pass}
    (h : PassOk noise x l b size m (x.length + 1 - m) lists0 p) (lbMin : List (Fl ℝ) → Except PyErr (Fl ℝ)) (hmin : MinLike lbMin) :
    (p.accept lbMin = .ok true ∧ IsMotif noise x m b p.best.idx) ∨ p.accept lbMin = .ok false ∨
      ∃ e, p.accept lbMin = .error e ∧ lbMin [] = .error e ∧ p.invalid = [] ∧ p.best.idx ≠ none := by
  unfold Pass.accept
  have hcov : ∀ v, p.best.dist ≤ v → (∀ c ∈ p.invalid, v ≤ c.2) → IsMotif noise x m b p.best.idx := by
    intro v hv hc
    refine motif_of_cover (l := l) h.hit fun q i ha hcond => ?_
    rcases h.cover i (by have := ha.2.1; omega) with ⟨c1, -, c2⟩ | ⟨w, c1⟩
    · exact c2 q ha (hcond.resolve_left c1)
    · obtain ⟨-, -, w', w1, w2⟩ := h.inv _ c1
      exact le_of_low h.hit (w1 ▸ hv.trans (hc _ c1)) (w2 q ha hcond)
  cases hidx : p.best.idx with
  | none => exact Or.inr (Or.inl rfl)
  | some pr =>
    simp only
    rw [← hidx]
    by_cases hne : p.invalid = []
    · rcases hmin.2 with ⟨e, he⟩ | he
      · refine Or.inr (Or.inr ⟨e, ?_, he, hne, by rw [hidx]; simp⟩)
        rw [hne, List.map_nil, he]
        rfl
      · have hd : p.best.dist ≤ .pinf := by
          rw [Fl.le_pinf_iff]
          rcases h.hit with h1 | ⟨q, i, -, h1, -⟩
          · rw [h1.1]; simp
          · rw [h1]; simp
        refine Or.inl ⟨?_, hcov _ hd (by rw [hne]; simp)⟩
        rw [hne, List.map_nil, he]
        have : p.best.dist.leF .pinf = true := (Fl.leF_iff _ _).mpr ⟨hd, by simp⟩
        simp [bind, Except.bind, this, pure, Except.pure]
    · rw [hmin.1 _ (by simpa using hne)]
      obtain ⟨v, v1, v2, -, v3⟩ := npMin_spec (p.invalid.map (·.2)) (by simpa using hne)
      have hfin : ∀ y ∈ p.invalid.map (·.2), ∃ w, y = Fl.fin w := by
        intro y hy
        obtain ⟨c, hc, rfl⟩ := List.mem_map.mp hy
        obtain ⟨-, -, w, w1, -⟩ := h.inv c hc
        exact ⟨w, w1⟩
      have hnn : Fl.nan ∉ p.invalid.map (·.2) := by
        intro hn
        obtain ⟨w, hw⟩ := hfin _ hn
        simp at hw
      rw [v1]
      simp only [bind, Except.bind, pure, Except.pure]
      by_cases hle : p.best.dist.leF v = true
      · rw [hle]
        exact Or.inl ⟨rfl, hcov v ((Fl.leF_iff _ _).mp hle).1 fun c hc => v3 hnn _ (List.mem_map.mpr ⟨c, hc, rfl⟩)⟩
      · rw [Bool.not_eq_true] at hle
        rw [hle]
        exact Or.inr (Or.inl rfl)

theorem recalc_ok (mem : Mem) (hmem : mem.Ok) {x : List ℝ} {l b m : Nat} (L : List (Nat × Fl ℝ)) (P : Nat → Nat → Prop)
    (hL : ∀ c ∈ L, c.1 + m ≤ x.length ∧ ∃ w, c.2 = .fin w ∧ ∀ q, FarPair x.length m b q c.1 → (std l (seqOf x) c.1 = 0 ∨ std l (seqOf x) q ≠ 0) → Low w (D noise x m q c.1))
    (st : ZN × Best) (hg : GenOk noise st.1 m x) (hP : BestOk noise x m b P st.2) :
    ∃ st', L.foldlM (recalcColumn mem (b : Int)) st = .ok st' ∧
      BestOk noise x m b (fun q i => P q i ∨ ((∃ c ∈ L, c.1 = i) ∧ (std l (seqOf x) i = 0 ∨ std l (seqOf x) q ≠ 0))) st'.2 := by
  induction L generalizing st P with
  | nil => exact ⟨st, rfl, hP.mono fun q i _ h => Or.inr (h.resolve_right (by simp))⟩
  | cons c L ih =>
    obtain ⟨c1, w, c2, c3⟩ := hL c (by simp)
    have hL' : ∀ c ∈ L, _ := fun c hc => hL c (List.mem_cons_of_mem _ hc)
    have hnan : st.2.dist ≠ .nan := by
      rcases hP.hit with h1 | ⟨q, i, -, h1, -⟩
      · rw [h1.1]; simp
      · rw [h1]; simp
    rw [List.foldlM_cons]
    unfold recalcColumn
    by_cases hlt : c.2.ltF st.2.dist = true
    · rw [if_pos hlt]
      obtain ⟨z', g1, g2, -, -⟩ := column_gen mem hmem st.1 m x hg c.1 c1
      obtain ⟨best', b1, b2, -⟩ := hP.improve c.1 c1
      obtain ⟨st', s1, s2⟩ := ih _ hL' (z', best') g2 b2
      refine ⟨st', ?_, s2.mono ?_⟩
      · rw [g1]
        simp only [bind, Except.bind]
        rw [b1]
        exact s1
      · rintro q i ha (h | ⟨⟨c', hc', rfl⟩, h⟩)
        · exact Or.inr (Or.inl (Or.inl h))
        · rcases List.mem_cons.mp hc' with rfl | hc'
          · exact Or.inr (Or.inl (Or.inr rfl))
          · exact Or.inr (Or.inr ⟨⟨c', hc', rfl⟩, h⟩)
    · rw [if_neg hlt]
      have hle : st.2.dist ≤ .fin w := by
        rw [← c2]
        exact (Fl.ltF_false_iff _ _ hnan).mp (by simpa using hlt)
      have hP' : BestOk noise x m b (fun q i => P q i ∨ (i = c.1 ∧ (std l (seqOf x) i = 0 ∨ std l (seqOf x) q ≠ 0))) st.2 := by
        refine hP.mono ?_
        rintro q i ha (h | ⟨rfl, h⟩)
        · exact Or.inr h
        · exact Or.inl (le_of_low hP.hit hle (c3 q ha h))
      obtain ⟨st', s1, s2⟩ := ih _ hL' st hg hP'
      refine ⟨st', s1, s2.mono ?_⟩
      rintro q i ha (h | ⟨⟨c', hc', rfl⟩, h⟩)
      · exact Or.inr (Or.inl (Or.inl h))
      · rcases List.mem_cons.mp hc' with rfl | hc'
        · exact Or.inr (Or.inl (Or.inr ⟨rfl, h⟩))
        · exact Or.inr (Or.inr ⟨⟨c', hc', rfl⟩, h⟩)

theorem settle_ok (mem : Mem) (hmem : mem.Ok) (argsort : List (Fl ℝ) → List Nat) (hsort : ∀ v, IsArgsort v (argsort v)) (size : Int) (hsize : 1 ≤ size)
    {x : List ℝ} {l b m : Nat} {lists0 : List (List Entry)} {p : Pass} (h : PassOk noise x l b size m (x.length + 1 - m) lists0 p) (hl : 0 < l) (hlm : l < m)
    (hm : m ≤ x.length) (z : ZN) (hz : GenOk noise z m x) (n : Int) :
    ∃ lists motif, settle mem argsort size (b : Int) n z p = .ok (lists, motif) ∧ IsMotif noise x m b motif ∧
      ∃ l', l ≤ l' ∧ l' ≤ m ∧ ListsAt x l' b size m (x.length + 1 - m) lists := by
  unfold settle
  split
  · obtain ⟨f, f1, f2, -, f3⟩ := full_ok mem hmem argsort hsort size hsize x m b (by omega) hm z hz
    refine ⟨f.lists, f.best.idx, ?_, f3.motif, m, hlm.le, le_rfl, f2⟩
    rw [f1]
    rfl
  · obtain ⟨st', s1, s2⟩ := recalc_ok mem hmem (x := x) (l := l) (b := b) (m := m) p.invalid
      (fun q i => p.best.dist ≤ .fin (D noise x m q i)) (by
        intro c hc
        obtain ⟨i1, -, i2⟩ := h.inv c hc
        exact ⟨by omega, i2⟩) (z, p.best) hz ⟨h.hit, fun _ _ _ h => h⟩
    refine ⟨p.lists, st'.2.idx, ?_, ?_, l, le_rfl, hlm.le, h.done⟩
    · rw [s1]
      rfl
    · refine motif_of_cover (l := l) s2.hit fun q i ha hcond => ?_
      rcases h.cover i (by have := ha.2.1; omega) with ⟨c1, -, c2⟩ | ⟨w, c1⟩
      · exact s2.low q i ha (Or.inl (c2 q ha (hcond.resolve_left c1)))
      · exact s2.low q i ha (Or.inr ⟨⟨_, c1, rfl⟩, hcond⟩)

/-- One length: the answer is right, or no column is left and the minimum of no bounds fails. -/
theorem lengthStep_ok (mem : Mem) (hmem : mem.Ok) (argsort : List (Fl ℝ) → List Nat) (hsort : ∀ v, IsArgsort v (argsort v)) (size : Int) (hsize : 1 ≤ size)
    (lbMin : List (Fl ℝ) → Except PyErr (Fl ℝ)) (hmin : MinLike lbMin) (x : List ℝ) (l b m : Nat) (hl : 0 < l) (hlm : l < m) (hm : m ≤ x.length)
    (hrel : Reliable noise x l size m) (lists0 : List (List Entry)) (h0 : ListsAt x l b size (m - 1) (x.length + 1 - m) lists0)
    (found : List (Option (Nat × Nat))) :
    (∃ lists motif, lengthStep mem argsort lbMin noise size (b : Int) (x.map .fin) (lists0, found) (m : Int) = .ok (lists, found ++ [motif]) ∧
      IsMotif noise x m b motif ∧ ∃ l', l ≤ l' ∧ l' ≤ m ∧ ListsAt x l' b size m (x.length + 1 - m) lists) ∨
    ∃ e, lengthStep mem argsort lbMin noise size (b : Int) (x.map .fin) (lists0, found) (m : Int) = .error e ∧ lbMin [] = .error e ∧
      ∀ i, i + m ≤ x.length → std m (seqOf x) i ≠ 0 := by
  obtain ⟨z, z1, z2⟩ := prepare_gen mem hmem noise m (by omega) x hm
  obtain ⟨p, p1, p2⟩ := pass_ok x l b m size lists0 z z2.1 hl hlm hm hrel h0
  unfold lengthStep
  rw [z1]
  simp only [bind, Except.bind, List.length_map]
  rw [p1]
  simp only
  rcases accept_ok p2 lbMin hmin with ⟨a1, a2⟩ | a1 | ⟨e, a1, a2, a3, -⟩
  · rw [a1]
    simp only [if_true]
    exact Or.inl ⟨p.lists, p.best.idx, rfl, a2, l, le_rfl, hlm.le, p2.done⟩
  · rw [a1]
    obtain ⟨lists, motif, s1, s2, s3⟩ := settle_ok mem hmem argsort hsort size hsize p2 hl hlm hm z z2 ((x.length : Int) - m + 1)
    refine Or.inl ⟨lists, motif, ?_, s2, s3⟩
    simp only [Bool.false_eq_true, if_false]
    rw [s1]
    rfl
  · rw [a1]
    refine Or.inr ⟨e, rfl, a2, fun i hi => ?_⟩
    rcases p2.cover i (by omega) with ⟨c1, -⟩ | ⟨w, c1⟩
    · exact std_ne_zero_of_prefix l m hl hlm.le _ i c1
    · rw [a3] at c1
      simp at c1

/-- All lengths after the first. -/
theorem lengths_ok (mem : Mem) (hmem : mem.Ok) (argsort : List (Fl ℝ) → List Nat) (hsort : ∀ v, IsArgsort v (argsort v)) (size : Int) (hsize : 1 ≤ size)
    (lbMin : List (Fl ℝ) → Except PyErr (Fl ℝ)) (hmin : MinLike lbMin) (x : List ℝ) (b lo : Nat) (hlo : 0 < lo) (k : Nat) (hk : lo + k ≤ x.length)
    (hrel : ∀ m, lo < m → m ≤ lo + k → Reliable noise x lo size m) (lists0 : List (List Entry)) (h0 : ListsAt x lo b size lo (x.length + 1 - lo) lists0)
    (first : Option (Nat × Nat)) (hfirst : IsMotif noise x lo b first) :
    (∃ lists found, (pyRange ((lo : Int) + 1) ((lo : Int) + k + 1)).foldlM (lengthStep mem argsort lbMin noise size (b : Int) (x.map .fin)) (lists0, [first]) =
        .ok (lists, found) ∧ found.length = k + 1 ∧ (∀ j, j ≤ k → ∃ a, found[j]? = some a ∧ IsMotif noise x (lo + j) b a) ∧
        ∃ l, lo ≤ l ∧ l ≤ lo + k ∧ ListsAt x l b size (lo + k) (x.length + 1 - (lo + k)) lists) ∨
    ∃ e m, (pyRange ((lo : Int) + 1) ((lo : Int) + k + 1)).foldlM (lengthStep mem argsort lbMin noise size (b : Int) (x.map .fin)) (lists0, [first]) = .error e ∧
      lbMin [] = .error e ∧ m ≤ lo + k ∧ ∀ i, i + m ≤ x.length → std m (seqOf x) i ≠ 0 := by
  induction k with
  | zero =>
    refine Or.inl ⟨lists0, [first], ?_, rfl, ?_, lo, le_rfl, by omega, h0⟩
    · rw [pyRange_empty _ _ (by simp)]
      rfl
    · intro j hj
      rw [Nat.le_zero.mp hj]
      exact ⟨first, rfl, hfirst⟩
  | succ k ih =>
    have hr : pyRange ((lo : Int) + 1) ((lo : Int) + ((k + 1 : Nat) : Int) + 1) = pyRange ((lo : Int) + 1) ((lo : Int) + k + 1) ++ [((lo + k + 1 : Nat) : Int)] := by
      rw [show (lo : Int) + ((k + 1 : Nat) : Int) + 1 = ((lo : Int) + k + 1) + 1 by push_cast; ring, pyRange_succ_right _ _ (by omega)]
      push_cast
      rfl
    rcases ih (by omega) (fun m h1 h2 => hrel m h1 (by omega)) with ⟨lists, found, f1, f2, f3, l, l1, l2, l3⟩ | ⟨e, m, f1, f2, f3, f4⟩
    · have h0' : ListsAt x l b size (lo + k + 1 - 1) (x.length + 1 - (lo + k + 1)) lists := fun i hi => l3 i (by omega)
      rcases lengthStep_ok mem hmem argsort hsort size hsize lbMin hmin x l b (lo + k + 1) (by omega) (by omega) (by omega) ((hrel _ (by omega) (by omega)).mono l1) lists h0' found with
        ⟨lists', motif, g1, g2, l', g3, g4, g5⟩ | ⟨e, g1, g2, g3⟩
      · refine Or.inl ⟨lists', found ++ [motif], ?_, by simp [f2], ?_, l', l1.trans g3, by omega, g5⟩
        · rw [hr, List.foldlM_append, f1]
          simp only [bind, Except.bind, List.foldlM_cons, List.foldlM_nil]
          rw [g1]
          rfl
        · intro j hj
          by_cases hj' : j = k + 1
          · subst hj'
            exact ⟨motif, by rw [List.getElem?_append_right (by omega)]; simp [f2], g2⟩
          · obtain ⟨a, a1, a2⟩ := f3 j (by omega)
            exact ⟨a, by rw [List.getElem?_append_left (by omega)]; exact a1, a2⟩
      · refine Or.inr ⟨e, lo + k + 1, ?_, g2, by omega, g3⟩
        rw [hr, List.foldlM_append, f1]
        simp only [bind, Except.bind, List.foldlM_cons, List.foldlM_nil]
        rw [g1]
    · refine Or.inr ⟨e, m, ?_, f2, by omega, f4⟩
      rw [hr, List.foldlM_append, f1]
      rfl

theorem findMotifs_ok (mem : Mem) (hmem : mem.Ok) (argsort : List (Fl ℝ) → List Nat) (hsort : ∀ v, IsArgsort v (argsort v)) (size : Int) (hsize : 1 ≤ size)
    (lbMin : List (Fl ℝ) → Except PyErr (Fl ℝ)) (hmin : MinLike lbMin) (x : List ℝ) (lo k : Nat) (hlo : 2 ≤ lo) (hk : lo + k ≤ x.length)
    (hrel : ∀ m, lo < m → m ≤ lo + k → Reliable noise x lo size m) :
    (∃ found, findMotifsWith lbMin mem argsort (x.map .fin) lo ((lo : Int) + k) size noise = .ok found ∧ found.length = k + 1 ∧
      ∀ j, j ≤ k → ∃ a, found[j]? = some a ∧ IsMotif noise x (lo + j) ((lo + 1) / 2) a) ∨
    ∃ e m, findMotifsWith lbMin mem argsort (x.map .fin) lo ((lo : Int) + k) size noise = .error e ∧ lbMin [] = .error e ∧ m ≤ lo + k ∧
      ∀ i, i + m ≤ x.length → std m (seqOf x) i ≠ 0 := by
  obtain ⟨z, z1, z2⟩ := prepare_gen mem hmem noise lo (by omega) x (by omega)
  obtain ⟨f, f1, f2, -, f3⟩ := full_ok mem hmem argsort hsort size hsize x lo ((lo + 1) / 2) (by omega) (by omega) z z2
  have hb : ((lo : Int) + 1) / 2 = (((lo + 1) / 2 : Nat) : Int) := by omega
  unfold findMotifsWith
  rw [if_neg (by omega), if_neg (by omega), if_neg (by omega), z1]
  simp only [bind, Except.bind]
  rw [hb, f1]
  simp only
  rcases lengths_ok mem hmem argsort hsort size hsize lbMin hmin x ((lo + 1) / 2) lo (by omega) k hk hrel f.lists f2 f.best.idx f3.motif with
    ⟨lists, found, g1, g2, g3, -⟩ | ⟨e, m, g1, g2, g3, g4⟩
  · refine Or.inl ⟨found, ?_, g2, g3⟩
    rw [g1]
    rfl
  · refine Or.inr ⟨e, m, ?_, g2, g3, g4⟩
    rw [g1]

end Valmod
end Verif
