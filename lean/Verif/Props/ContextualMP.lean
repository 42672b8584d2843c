import Verif.Lemmas.Grid
import Verif.Spec.Deliveries
import Verif.Props.ContextManager
import Mathlib.Data.Set.Basic

/-!
# C51, C52: `ContextualMatrixProfile`
-/

namespace Verif
open Spec
variable {M K : Type} [LinearOrder K]

/-! ### Specification -/

/-- A set of cells without NaN. -/
def Spec.Clean (s : Set (Cell K)) : Prop := ∀ x ∈ s, x.val ≠ .nan

/-- `v` is the smallest value of the pieces without NaN and (`a`, `b`) the row and column of such a value; `+inf`, -1, -1 if there is none below `+inf`. -/
structure Spec.IsPieceMin (P : Set (Set (Cell K))) (v : Fl K) (a b : Int) : Prop where
  number : v ≠ .nan
  lower : ∀ s ∈ P, Clean s → ∀ x ∈ s, v ≤ x.val
  attained : (v = .pinf ∧ a = -1 ∧ b = -1) ∨ (v < .pinf ∧ ∃ s ∈ P, Clean s ∧ ⟨a, b, v⟩ ∈ s)

/-- Cells of a call that lie in the rectangle of two contexts; the window starts at stream column `ss` and row `qs`, contexts are given in window positions. -/
def Spec.piece (ss qs : Nat) (d : Delivery K) (c0 c1 : Ctx) : Set (Cell K) :=
  {x | x ∈ d.cells ss qs ∧ (c0.start ≤ x.row - qs ∧ x.row - qs < c0.stop) ∧ c1.start ≤ x.col - ss ∧ x.col - ss < c1.stop}

/-- What a contextual matrix profile has seen: position of the window, the state of the context manager, the total shift `ks` of the series contexts, and for each
pair of a query context and a stream series context (window id + `ks`) the pieces delivered for it. -/
structure Spec.CtxSeen (M K : Type) where
  ss : Nat
  qs : Nat
  ks : Nat
  ctxs : M
  pieces : Int → Int → Set (Set (Cell K))

/-- Effect of a call; `qc`, `sc` are the contexts of a manager. -/
def Spec.CtxSeen.step (ops : CtxOps M) (qc sc : M → List Ctx) (t : CtxSeen M K) : Delivery K → CtxSeen M K
  | .shiftSeries n => match ops.shiftSeries t.ctxs n with
    | .ok (m, k) => { t with ss := t.ss + n, ctxs := m, ks := t.ks + k.toNat }
    | .error _ => t
  | .shiftQuery n => match ops.shiftQuery t.ctxs n with
    | .ok (m, _) => { t with qs := t.qs + n, ctxs := m }
    | .error _ => t
  | d => { t with pieces := fun i j => t.pieces i j ∪ {s | ∃ c0 ∈ qc t.ctxs, ∃ c1 ∈ sc t.ctxs, c0.id = i ∧ c1.id + t.ks = j ∧ s = piece t.ss t.qs d c0 c1} }

/-- A column of `n` values of an `h` × `w` window has a value for every query range that meets the window. -/
def Spec.Reaches (ql : List Ctx) (h n : Nat) : Prop := ∀ c ∈ ql, Overlaps c 0 h → c.start < n

/-- The calls covered: whole diagonals of an `h` × `w` window, columns that are whole or (in a stream that does not fill the query window yet) reach every query
range, shifts of the series that the manager accepts, shifts of the query for which it does not ask to move the context matrix. -/
def Spec.CtxCall (ops : CtxOps M) (qc : M → List Ctx) (h w : Nat) (m : M) : Delivery K → Prop
  | .diag d vals => vals ≠ [] ∧ vals.length = min (h - (-d).toNat) (w - d.toNat)
  | .column c vals => c < w ∧ vals ≠ [] ∧ vals.length ≤ h ∧ Reaches (qc m) h vals.length
  | .shiftSeries n => ∃ m' k, ops.shiftSeries m n = .ok (m', k)
  | .shiftQuery n => ∃ m' k, ops.shiftQuery m n = .ok (m', k) ∧ k ≤ 0

/-- All calls of a history are covered. -/
def Spec.CtxCalls (ops : CtxOps M) (qc sc : M → List Ctx) (h w : Nat) : CtxSeen M K → List (Delivery K) → Prop
  | _, [] => True
  | t, d :: ds => CtxCall ops qc h w t.ctxs d ∧ CtxCalls ops qc sc h w (t.step ops qc sc d) ds

/-- What is asked of the lookups of a context manager: in every state satisfying `ok` they return the overlapping contexts (in any order, any number of times),
ids are within the fixed shape `nq` × `ns` and query contexts do not start below 0. -/
structure Spec.CtxLooks (ops : CtxOps M) (qc sc : M → List Ctx) (nq ns : Nat) (ok : M → Prop) : Prop where
  shape : ∀ m, ok m → ops.shape m = .ok ((nq : Int), (ns : Int))
  query : ∀ m, ok m → ∀ start stop : Int, start < stop → ∃ l, ops.queryContexts m start stop = .ok l ∧ ∀ c, c ∈ l ↔ c ∈ qc m ∧ Overlaps c start stop
  series : ∀ m, ok m → ∀ start stop : Int, start < stop → ∃ l, ops.seriesContexts m start stop = .ok l ∧ ∀ c, c ∈ l ↔ c ∈ sc m ∧ Overlaps c start stop
  qbound : ∀ m, ok m → ∀ c ∈ qc m, 0 ≤ c.start ∧ 0 ≤ c.id ∧ c.id < nq
  sbound : ∀ m, ok m → ∀ c ∈ sc m, 0 ≤ c.id ∧ c.id < ns

/-- What is asked of a context manager: lookups as above, and shifting preserves `ok`. -/
structure Spec.CtxServes (ops : CtxOps M) (qc sc : M → List Ctx) (nq ns : Nat) (ok : M → Prop) : Prop extends CtxLooks ops qc sc nq ns ok where
  shiftS : ∀ m, ok m → ∀ n m' k, ops.shiftSeries m n = .ok (m', k) → ok m'
  shiftQ : ∀ m, ok m → ∀ n m' k, ops.shiftQuery m n = .ok (m', k) → ok m'

namespace CMP

/-- Apply one call. -/
def deliver (ops : CtxOps M) (p : CMP M K) : Delivery K → Except PyErr (CMP M K)
  | .diag d vals => p.processDiagonal ops d [vals]
  | .column c vals => p.processColumn ops c [vals]
  | .shiftSeries n => p.shiftSeries ops n
  | .shiftQuery n => p.shiftQuery ops n

/-- A sequence of calls. -/
def run (ops : CtxOps M) (p : CMP M K) (ds : List (Delivery K)) : Except PyErr (CMP M K) := ds.foldlM (deliver ops) p

/-! ### Invariant -/

/-- The buffers hold the minima of the pieces `P`. -/
structure Inv (p : CMP M K) (h w nq ns : Nat) (m : M) (qs ss : Nat) (P : Nat → Nat → Set (Set (Cell K))) : Prop where
  h_eq : p.h = h
  w_eq : p.w = w
  ctxs : p.ctxs = m
  qShift : p.qShift = qs
  sShift : p.sShift = ss
  grids : ∃ (D : Nat → Nat → Fl K) (Q S : Nat → Nat → Int), p.dist.Grid nq ns D ∧ p.miq.Grid nq ns Q ∧ p.mis.Grid nq ns S ∧
    ∀ i < nq, ∀ j < ns, IsPieceMin (P i j) (D i j) (Q i j) (S i j)

theorem Inv.congr {p : CMP M K} {h w nq ns : Nat} {m : M} {qs ss : Nat} {P P' : Nat → Nat → Set (Set (Cell K))} (hp : p.Inv h w nq ns m qs ss P)
    (he : ∀ i < nq, ∀ j < ns, ∀ s : Set (Cell K), s.Nonempty → (s ∈ P i j ↔ s ∈ P' i j)) : p.Inv h w nq ns m qs ss P' := by
  obtain ⟨D, Q, S, g1, g2, g3, g4⟩ := hp.grids
  refine ⟨hp.h_eq, hp.w_eq, hp.ctxs, hp.qShift, hp.sShift, D, Q, S, g1, g2, g3, fun i hi j hj => ?_⟩
  have := g4 i hi j hj
  refine ⟨this.number, fun s hs hc x hx => this.lower s ((he i hi j hj s ⟨x, hx⟩).mpr hs) hc x hx, ?_⟩
  rcases this.attained with h | ⟨h1, s, h2, h3, h4⟩
  · exact .inl h
  · exact .inr ⟨h1, s, (he i hi j hj s ⟨_, h4⟩).mp h2, h3, h4⟩

/-- Cells of a run of values. -/
def subCells (sub : List (Fl K)) (pos : Nat → Int × Int) (qs ss : Nat) : Set (Cell K) :=
  {x | ∃ (k : Nat) (v : Fl K), sub[k]? = some v ∧ x = ⟨(pos k).1 + qs, (pos k).2 + ss, v⟩}

theorem improve_inv {p : CMP M K} {h w nq ns : Nat} {m : M} {qs ss : Nat} {P : Nat → Nat → Set (Set (Cell K))} (hp : p.Inv h w nq ns m qs ss P)
    (i j : Int) (hi0 : 0 ≤ i) (hi : i < nq) (hj0 : 0 ≤ j) (hj : j < ns) (sub : List (Fl K)) (hsub : sub ≠ []) (pos : Nat → Int × Int) :
    ∃ p', p.improve i j sub pos = .ok p' ∧
      p'.Inv h w nq ns m qs ss (fun a b => P a b ∪ {s | (a : Int) = i ∧ (b : Int) = j ∧ s = subCells sub pos qs ss}) := by
  obtain ⟨i, rfl⟩ := Int.eq_ofNat_of_zero_le hi0
  obtain ⟨j, rfl⟩ := Int.eq_ofNat_of_zero_le hj0
  have hi : i < nq := by omega
  have hj : j < ns := by omega
  obtain ⟨D, Q, S, g1, g2, g3, g4⟩ := hp.grids
  obtain ⟨mn, hmn, hmem, hnan, hle⟩ := npMin_spec sub hsub
  obtain ⟨am, ham, halt, hamv, -⟩ := npArgmin_spec sub hsub
  have hmnam : mn = sub[am] := by rw [hmn] at hamv; exact Except.ok.inj hamv
  have hold := g1.get i j hi hj
  have hb := g4 i hi j hj
  unfold improve
  simp only [hmn, hold, bind, Except.bind]
  split
  · rename_i hlt
    rw [Fl.ltF_iff] at hlt
    have hmnn : mn ≠ .nan := by
      intro h
      rw [h] at hlt
      exact absurd (Fl.le_nan (D i j)) (not_le.mpr hlt.1)
    have hclean : Fl.nan ∉ sub := fun h => hmnn (hnan.mpr h)
    obtain ⟨d', e1, e2⟩ := g1.set i j hi hj mn
    obtain ⟨q', e3, e4⟩ := g2.set i j hi hj ((pos am).1 + p.qShift)
    obtain ⟨s', e5, e6⟩ := g3.set i j hi hj ((pos am).2 + p.sShift)
    simp only [e1, ham, e3, e5]
    refine ⟨_, rfl, hp.h_eq, hp.w_eq, hp.ctxs, hp.qShift, hp.sShift, _, _, _, e2, e4, e6, fun a ha b hbn => ?_⟩
    by_cases he : a = i ∧ b = j
    · rw [if_pos he, if_pos he, if_pos he]
      have hcs : Clean (subCells sub pos qs ss) := by
        rintro x ⟨k, v, hk, rfl⟩
        simp only
        rintro rfl
        exact hclean (List.mem_of_getElem? hk)
      refine ⟨hmnn, ?_, .inr ⟨?_, subCells sub pos qs ss, Set.mem_union_right _ ⟨by rw [he.1], by rw [he.2], rfl⟩, hcs, am, mn, by simp [hmnam, halt], by rw [hp.qShift, hp.sShift]⟩⟩
      · rintro s (hs | ⟨-, -, rfl⟩) hc x hx
        · rw [he.1, he.2] at hs
          exact le_trans hlt.1.le (hb.lower s hs hc x hx)
        · obtain ⟨k, v, hk, rfl⟩ := hx
          exact hle hclean v (List.mem_of_getElem? hk)
      · exact lt_of_lt_of_le hlt.1 ((Fl.le_pinf_iff _).mpr hb.number)
    · simp only [he, if_false]
      have h4 := g4 a ha b hbn
      refine ⟨h4.number, ?_, ?_⟩
      · rintro s (hs | ⟨h1, h2, -⟩) hc x hx
        · exact h4.lower s hs hc x hx
        · exact absurd ⟨by omega, by omega⟩ he
      · rcases h4.attained with h | ⟨h1, s, h2, h3⟩
        · exact .inl h
        · exact .inr ⟨h1, s, .inl h2, h3⟩
  · rename_i hlt
    refine ⟨p, rfl, hp.h_eq, hp.w_eq, hp.ctxs, hp.qShift, hp.sShift, D, Q, S, g1, g2, g3, fun a ha b hbn => ?_⟩
    have h4 := g4 a ha b hbn
    refine ⟨h4.number, ?_, ?_⟩
    · rintro s (hs | ⟨h1, h2, rfl⟩) hc x hx
      · exact h4.lower s hs hc x hx
      · have ea : a = i := by omega
        have eb : b = j := by omega
        subst ea eb
        obtain ⟨k, v, hk, rfl⟩ := hx
        have hclean : Fl.nan ∉ sub := by
          intro hn
          obtain ⟨k', hk'⟩ := List.mem_iff_getElem?.mp hn
          exact hc _ ⟨k', .nan, hk', rfl⟩ rfl
        have h5 : D a b ≤ mn := by
          rw [← Fl.ltF_false_iff _ _ h4.number]
          simpa using hlt
        exact le_trans h5 (hle hclean v (List.mem_of_getElem? hk))
    · rcases h4.attained with h | ⟨h1, s, h2, h3⟩
      · exact .inl h
      · exact .inr ⟨h1, s, .inl h2, h3⟩

theorem diagInner_inv (h w nq ns : Nat) (m : M) (qs ss : Nat) (vals : List (Fl K)) (diag vs s1 e1 c0id : Int) (hi0 : 0 ≤ c0id) (hi : c0id < nq) :
    ∀ (cs : List Ctx) (p : CMP M K) (P : Nat → Nat → Set (Set (Cell K))), p.Inv h w nq ns m qs ss P →
      (∀ c ∈ cs, 0 ≤ c.id ∧ c.id < ns ∧ pySlice vals (max s1 c.start - vs) (min e1 c.stop - vs) ≠ []) →
      ∃ p', diagInner vals diag vs s1 e1 c0id cs p = .ok p' ∧ p'.Inv h w nq ns m qs ss (fun a b => P a b ∪ {s | ∃ c ∈ cs, (a : Int) = c0id ∧ (b : Int) = c.id ∧
        s = subCells (pySlice vals (max s1 c.start - vs) (min e1 c.stop - vs)) (fun k => (k + (max s1 c.start - diag), k + max s1 c.start)) qs ss}) := by
  intro cs
  induction cs with
  | nil => intro p P hp _; exact ⟨p, rfl, hp.congr (by intros; simp)⟩
  | cons c cs ih =>
    intro p P hp hc
    obtain ⟨a1, a2, a3⟩ := hc c (by simp)
    obtain ⟨p1, h1, h2⟩ := improve_inv hp c0id c.id hi0 hi a1 a2 _ a3 (fun k => (k + (max s1 c.start - diag), k + max s1 c.start))
    obtain ⟨p2, h3, h4⟩ := ih p1 _ h2 (fun c' hc' => hc c' (by simp [hc']))
    refine ⟨p2, ?_, h4.congr ?_⟩
    · rw [diagInner]
      simp only [h1, bind, Except.bind]
      exact h3
    · intro a _ b _ s _
      simp only [Set.mem_union, Set.mem_ofPred_eq, List.mem_cons, exists_eq_or_imp]
      tauto

theorem colInner_inv (h w nq ns : Nat) (m : M) (qs ss : Nat) (vals : List (Fl K)) (c c1id : Int) (hj0 : 0 ≤ c1id) (hj : c1id < ns) :
    ∀ (cs : List Ctx) (p : CMP M K) (P : Nat → Nat → Set (Set (Cell K))), p.Inv h w nq ns m qs ss P →
      (∀ c0 ∈ cs, 0 ≤ c0.id ∧ c0.id < nq ∧ pySlice vals c0.start c0.stop ≠ []) →
      ∃ p', colInner vals c c1id cs p = .ok p' ∧ p'.Inv h w nq ns m qs ss (fun a b => P a b ∪ {s | ∃ c0 ∈ cs, (a : Int) = c0.id ∧ (b : Int) = c1id ∧
        s = subCells (pySlice vals c0.start c0.stop) (fun k => (k + c0.start, c)) qs ss}) := by
  intro cs
  induction cs with
  | nil => intro p P hp _; exact ⟨p, rfl, hp.congr (by intros; simp)⟩
  | cons c0 cs ih =>
    intro p P hp hc
    obtain ⟨a1, a2, a3⟩ := hc c0 (by simp)
    obtain ⟨p1, h1, h2⟩ := improve_inv hp c0.id c1id a1 a2 hj0 hj _ a3 (fun k => (k + c0.start, c))
    obtain ⟨p2, h3, h4⟩ := ih p1 _ h2 (fun c' hc' => hc c' (by simp [hc']))
    refine ⟨p2, ?_, h4.congr ?_⟩
    · rw [colInner]
      simp only [h1, bind, Except.bind]
      exact h3
    · intro a _ b _ s _
      simp only [Set.mem_union, Set.mem_ofPred_eq, List.mem_cons, exists_eq_or_imp]
      tauto

omit [LinearOrder K] in
theorem getElem?_pySlice (vals : List (Fl K)) (a b : Int) (ha : 0 ≤ a) (hb : 0 ≤ b) (k : Nat) (v : Fl K) :
    (pySlice vals a b)[k]? = some v ↔ vals[a.toNat + k]? = some v ∧ a + k < b := by
  unfold pySlice
  rw [pyIdx_nonneg _ _ ha, pyIdx_nonneg _ _ hb, List.getElem?_drop, List.getElem?_take]
  rcases Nat.lt_or_ge a.toNat vals.length with h | h
  · rw [Nat.min_eq_left h.le]
    rcases Nat.lt_or_ge (a.toNat + k) vals.length with h2 | h2
    · by_cases h3 : a + k < b
      · rw [if_pos (by omega)]
        simp [h3]
      · rw [if_neg (by omega)]
        simp [h3]
    · rw [List.getElem?_eq_none h2]
      simp
  · rw [Nat.min_eq_right h, if_neg (by omega), List.getElem?_eq_none (by omega)]
    simp

omit [LinearOrder K] in
theorem mem_diag_piece (ss qs : Nat) (d : Int) (vals : List (Fl K)) (c0 c1 : Ctx) (x : Cell K) :
    x ∈ piece ss qs (.diag d vals) c0 c1 ↔ ∃ (k : Nat) (v : Fl K), vals[k]? = some v ∧ x = ⟨(((-d).toNat + k + qs : Nat) : Int), ((d.toNat + k + ss : Nat) : Int), v⟩ ∧
      (c0.start ≤ (((-d).toNat + k : Nat) : Int) ∧ (((-d).toNat + k : Nat) : Int) < c0.stop) ∧ c1.start ≤ ((d.toNat + k : Nat) : Int) ∧ ((d.toNat + k : Nat) : Int) < c1.stop := by
  simp only [piece, Set.mem_ofPred_eq, Delivery.cells, List.mem_map, Prod.exists, List.mem_zipIdx_iff_getElem?]
  constructor
  · rintro ⟨⟨v, k, hk, rfl⟩, h1, h2⟩
    simp only at h1 h2
    exact ⟨k, v, hk, rfl, by omega, by omega⟩
  · rintro ⟨k, v, hk, rfl, h1, h2⟩
    simp only
    exact ⟨⟨v, k, hk, rfl⟩, by omega, by omega⟩

omit [LinearOrder K] in
theorem mem_col_piece (ss qs : Nat) (c : Nat) (vals : List (Fl K)) (c0 c1 : Ctx) (x : Cell K) :
    x ∈ piece ss qs (.column c vals) c0 c1 ↔ ∃ (k : Nat) (v : Fl K), vals[k]? = some v ∧ x = ⟨((k + qs : Nat) : Int), ((c + ss : Nat) : Int), v⟩ ∧
      (c0.start ≤ (k : Int) ∧ (k : Int) < c0.stop) ∧ c1.start ≤ (c : Int) ∧ (c : Int) < c1.stop := by
  simp only [piece, Set.mem_ofPred_eq, Delivery.cells, List.mem_map, Prod.exists, List.mem_zipIdx_iff_getElem?]
  constructor
  · rintro ⟨⟨v, k, hk, rfl⟩, h1, h2⟩
    simp only at h1 h2
    exact ⟨k, v, hk, rfl, by omega, by omega⟩
  · rintro ⟨k, v, hk, rfl, h1, h2⟩
    simp only
    exact ⟨⟨v, k, hk, rfl⟩, by omega, by omega⟩

/-- The values compared for two contexts are those of their piece of the diagonal. -/
theorem sub_diag (ss qs h w : Nat) (d : Int) (vals : List (Fl K)) (hne : vals ≠ []) (hlen : vals.length = min (h - (-d).toNat) (w - d.toNat)) (c0 c1 : Ctx)
    (h0 : 0 ≤ c0.start) (s1 e1 : Int) (hs1 : s1 = min (max 0 (c0.start + d)) w) (he1 : e1 = min (w : Int) (min (h : Int) c0.stop + d)) (hlt : max s1 c1.start < min e1 c1.stop) :
    pySlice vals (max s1 c1.start - d.toNat) (min e1 c1.stop - d.toNat) ≠ [] ∧
    subCells (pySlice vals (max s1 c1.start - d.toNat) (min e1 c1.stop - d.toNat)) (fun k => (k + (max s1 c1.start - d), k + max s1 c1.start)) qs ss =
      piece ss qs (.diag d vals) c0 c1 := by
  have hpos := List.length_pos_iff.mpr hne
  have hw : 0 < w := by omega
  constructor
  · intro h
    have := (getElem?_pySlice vals (max s1 c1.start - d.toNat) (min e1 c1.stop - d.toNat) (by omega) (by omega) 0
      (vals[(max s1 c1.start - d.toNat).toNat]'(by omega))).mpr ⟨by simp, by omega⟩
    rw [h] at this
    simp at this
  · ext x
    rw [mem_diag_piece]
    simp only [subCells, Set.mem_ofPred_eq]
    constructor
    · rintro ⟨k, v, hk, rfl⟩
      rw [getElem?_pySlice _ _ _ (by omega) (by omega)] at hk
      obtain ⟨hk1, hk2⟩ := hk
      have hk3 := (List.getElem?_eq_some_iff.mp hk1).1
      refine ⟨_, v, hk1, ?_, by omega, by omega⟩
      congr 1 <;> omega
    · rintro ⟨k, v, hk, rfl, h1, h2⟩
      have hk3 := (List.getElem?_eq_some_iff.mp hk).1
      obtain ⟨k', hk'⟩ : ∃ k' : Nat, k = (max s1 c1.start - d.toNat).toNat + k' := ⟨k - (max s1 c1.start - d.toNat).toNat, by omega⟩
      refine ⟨k', v, ?_, ?_⟩
      · rw [getElem?_pySlice _ _ _ (by omega) (by omega), ← hk']
        exact ⟨hk, by omega⟩
      · congr 1 <;> omega

/-- Contexts without a common position with the compared part have no cells on the diagonal. -/
theorem diag_piece_empty (ss qs h w : Nat) (d : Int) (vals : List (Fl K)) (hlen : vals.length = min (h - (-d).toNat) (w - d.toNat)) (c0 c1 : Ctx) (s1 e1 : Int)
    (hs1 : s1 = min (max 0 (c0.start + d)) w) (he1 : e1 = min (w : Int) (min (h : Int) c0.stop + d)) (hn : (piece ss qs (.diag d vals) c0 c1).Nonempty) :
    (if d ≥ 0 then Overlaps c0 0 vals.length else Overlaps c0 (-d) h) ∧ Overlaps c1 s1 e1 ∧ s1 < e1 := by
  obtain ⟨x, hx⟩ := hn
  rw [mem_diag_piece] at hx
  obtain ⟨k, v, hk, -, h1, h2⟩ := hx
  have hk3 := (List.getElem?_eq_some_iff.mp hk).1
  refine ⟨?_, ⟨(d.toNat + k : Nat), by omega, by omega, by omega⟩, by omega⟩
  split
  · exact ⟨((-d).toNat + k : Nat), by omega, by omega, by omega⟩
  · exact ⟨((-d).toNat + k : Nat), by omega, by omega, by omega⟩

variable {ops : CtxOps M} {qc sc : M → List Ctx} {nq ns : Nat} {ok : M → Prop}

theorem diagOuter_inv (hserves : CtxLooks ops qc sc nq ns ok) (h w : Nat) (m : M) (hm : ok m) (qs ss : Nat) (d : Int) (vals : List (Fl K)) (hne : vals ≠ [])
    (hlen : vals.length = min (h - (-d).toNat) (w - d.toNat)) :
    ∀ (cs : List Ctx) (p : CMP M K) (P : Nat → Nat → Set (Set (Cell K))), p.Inv h w nq ns m qs ss P →
      (∀ c ∈ cs, c ∈ qc m ∧ if d ≥ 0 then Overlaps c 0 vals.length else Overlaps c (-d) h) →
      ∃ p', diagOuter ops vals d d.toNat cs p = .ok p' ∧ p'.Inv h w nq ns m qs ss (fun a b => P a b ∪ {s | ∃ c0 ∈ cs, ∃ c1 ∈ sc m, (a : Int) = c0.id ∧ (b : Int) = c1.id ∧
        s = piece ss qs (.diag d vals) c0 c1}) := by
  intro cs
  induction cs with
  | nil => intro p P hp _; exact ⟨p, rfl, hp.congr (by intros; simp)⟩
  | cons c0 cs ih =>
    intro p P hp hc
    obtain ⟨hcq, hov⟩ := hc c0 (by simp)
    obtain ⟨b1, b2, b3⟩ := hserves.qbound m hm c0 hcq
    have hpos := List.length_pos_iff.mpr hne
    rw [diagOuter]
    simp only [hp.w_eq, hp.h_eq]
    have key : min (max 0 (c0.start + d)) (w : Int) ≤ min (w : Int) (min (h : Int) c0.stop + d) := by
      split at hov <;> (obtain ⟨x, hx1, hx2⟩ := hov; omega)
    split
    · rename_i he
      obtain ⟨p2, h3, h4⟩ := ih p P hp (fun c' hc' => hc c' (by simp [hc']))
      refine ⟨p2, h3, h4.congr ?_⟩
      intro a _ b _ s hs
      simp only [Set.mem_union, Set.mem_ofPred_eq, List.mem_cons, exists_eq_or_imp]
      constructor
      · tauto
      · rintro (h5 | ⟨c1, -, -, -, rfl⟩ | h5)
        · exact .inl h5
        · have := (diag_piece_empty ss qs h w d vals hlen c0 c1 _ _ rfl rfl hs).2.2
          omega
        · exact .inr h5
    · rename_i he
      obtain ⟨l, hl, hl2⟩ := hserves.series m hm (min (max 0 (c0.start + d)) (w : Int)) (min (w : Int) (min (h : Int) c0.stop + d)) (by omega)
      rw [hp.ctxs, hl]
      have hin : ∀ c ∈ l, max (min (max 0 (c0.start + d)) (w : Int)) c.start < min (min (w : Int) (min (h : Int) c0.stop + d)) c.stop := by
        intro c hcl
        obtain ⟨-, x, hx1, hx2⟩ := (hl2 c).mp hcl
        omega
      obtain ⟨p1, h1, h2⟩ := diagInner_inv h w nq ns m qs ss vals d d.toNat (min (max 0 (c0.start + d)) (w : Int)) (min (w : Int) (min (h : Int) c0.stop + d)) c0.id b2 b3 l p P hp
        (fun c hcl => by
          obtain ⟨h5, h6⟩ := (hl2 c).mp hcl
          obtain ⟨h7, h8⟩ := hserves.sbound m hm c h5
          exact ⟨h7, h8, (sub_diag ss qs h w d vals hne hlen c0 c b1 _ _ rfl rfl (hin c hcl)).1⟩)
      obtain ⟨p2, h3, h4⟩ := ih p1 _ h2 (fun c' hc' => hc c' (by simp [hc']))
      refine ⟨p2, ?_, h4.congr ?_⟩
      · simp only [bind, Except.bind, h1]
        exact h3
      · intro a _ b _ s hs
        simp only [Set.mem_union, Set.mem_ofPred_eq, List.mem_cons, exists_eq_or_imp]
        constructor
        · rintro ((h5 | ⟨c1, h5, h6, h7, rfl⟩) | h5)
          · exact .inl h5
          · exact .inr (.inl ⟨c1, ((hl2 c1).mp h5).1, h6, h7, (sub_diag ss qs h w d vals hne hlen c0 c1 b1 _ _ rfl rfl (hin c1 h5)).2⟩)
          · exact .inr (.inr h5)
        · rintro (h5 | ⟨c1, h5, h6, h7, rfl⟩ | h5)
          · exact .inl (.inl h5)
          · have hcl := (hl2 c1).mpr ⟨h5, (diag_piece_empty ss qs h w d vals hlen c0 c1 _ _ rfl rfl hs).2.1⟩
            exact .inl (.inr ⟨c1, hcl, h6, h7, ((sub_diag ss qs h w d vals hne hlen c0 c1 b1 _ _ rfl rfl (hin c1 hcl)).2).symm⟩)
          · exact .inr h5

theorem processDiagonal_inv (hserves : CtxLooks ops qc sc nq ns ok) (h w : Nat) (m : M) (hm : ok m) (qs ss : Nat) (d : Int) (vals : List (Fl K)) (hne : vals ≠ [])
    (hlen : vals.length = min (h - (-d).toNat) (w - d.toNat)) (p : CMP M K) (P : Nat → Nat → Set (Set (Cell K))) (hp : p.Inv h w nq ns m qs ss P) :
    ∃ p', p.processDiagonal ops d [vals] = .ok p' ∧ p'.Inv h w nq ns m qs ss (fun a b => P a b ∪ {s | ∃ c0 ∈ qc m, ∃ c1 ∈ sc m, (a : Int) = c0.id ∧ (b : Int) = c1.id ∧
        s = piece ss qs (.diag d vals) c0 c1}) := by
  have hpos := List.length_pos_iff.mpr hne
  have main : ∀ l : List Ctx, (∀ c, c ∈ l ↔ c ∈ qc m ∧ if d ≥ 0 then Overlaps c 0 vals.length else Overlaps c (-d) h) →
      ∃ p', diagOuter ops vals d d.toNat l p = .ok p' ∧ p'.Inv h w nq ns m qs ss (fun a b => P a b ∪ {s | ∃ c0 ∈ qc m, ∃ c1 ∈ sc m, (a : Int) = c0.id ∧ (b : Int) = c1.id ∧
        s = piece ss qs (.diag d vals) c0 c1}) := by
    intro l hl
    obtain ⟨p', h1, h2⟩ := diagOuter_inv hserves h w m hm qs ss d vals hne hlen l p P hp (fun c hc => (hl c).mp hc)
    refine ⟨p', h1, h2.congr ?_⟩
    intro a _ b _ s hs
    simp only [Set.mem_union, Set.mem_ofPred_eq]
    constructor
    · rintro (h5 | ⟨c0, h5, h6⟩)
      · exact .inl h5
      · exact .inr ⟨c0, ((hl c0).mp h5).1, h6⟩
    · rintro (h5 | ⟨c0, h5, c1, h6, h7, h8, rfl⟩)
      · exact .inl h5
      · exact .inr ⟨c0, (hl c0).mpr ⟨h5, (diag_piece_empty ss qs h w d vals hlen c0 c1 _ _ rfl rfl hs).1⟩, c1, h6, h7, h8, rfl⟩
  unfold processDiagonal
  simp only [show pyGet [vals] 0 = .ok vals from rfl, bind, Except.bind]
  by_cases hd : d ≥ 0
  · simp only [hd, if_true] at main ⊢
    obtain ⟨l, hl, hl2⟩ := hserves.query m hm 0 vals.length (by omega)
    obtain ⟨p', h1, h2⟩ := main l hl2
    refine ⟨p', ?_, h2⟩
    rw [hp.ctxs, hl]
    rwa [Int.toNat_of_nonneg hd] at h1
  · simp only [hd, if_false] at main ⊢
    obtain ⟨l, hl, hl2⟩ := hserves.query m hm (-d) h (by omega)
    obtain ⟨p', h1, h2⟩ := main l hl2
    refine ⟨p', ?_, h2⟩
    rw [hp.ctxs, hp.h_eq, hl]
    rwa [show d.toNat = 0 by omega] at h1

/-- The values compared for a context are those of its piece of the column. -/
theorem sub_col (ss qs c : Nat) (vals : List (Fl K)) (c0 c1 : Ctx) (h0 : 0 ≤ c0.start) (hov : Overlaps c0 0 vals.length)
    (h1 : Overlaps c1 c (c + 1)) : pySlice vals c0.start c0.stop ≠ [] ∧
    subCells (pySlice vals c0.start c0.stop) (fun k => (k + c0.start, (c : Int))) qs ss = piece ss qs (.column c vals) c0 c1 := by
  obtain ⟨x, hx1, hx2⟩ := hov
  obtain ⟨y, hy1, hy2⟩ := h1
  constructor
  · intro h
    have := (getElem?_pySlice vals c0.start c0.stop (by omega) (by omega) 0 (vals[c0.start.toNat]'(by omega))).mpr ⟨by simp, by omega⟩
    rw [h] at this
    simp at this
  · ext z
    rw [mem_col_piece]
    simp only [subCells, Set.mem_ofPred_eq]
    constructor
    · rintro ⟨k, v, hk, rfl⟩
      rw [getElem?_pySlice _ _ _ (by omega) (by omega)] at hk
      obtain ⟨hk1, hk2⟩ := hk
      refine ⟨_, v, hk1, ?_, by omega, by omega⟩
      congr 1
      omega
    · rintro ⟨k, v, hk, rfl, h1, h2⟩
      obtain ⟨k', hk'⟩ : ∃ k' : Nat, k = c0.start.toNat + k' := ⟨k - c0.start.toNat, by omega⟩
      refine ⟨k', v, ?_, ?_⟩
      · rw [getElem?_pySlice _ _ _ (by omega) (by omega), ← hk']
        exact ⟨hk, by omega⟩
      · congr 1
        omega

theorem col_piece_empty (ss qs c : Nat) (vals : List (Fl K)) (c0 c1 : Ctx) (hn : (piece ss qs (.column c vals) c0 c1).Nonempty) :
    Overlaps c0 0 vals.length ∧ Overlaps c1 c (c + 1) := by
  obtain ⟨x, hx⟩ := hn
  rw [mem_col_piece] at hx
  obtain ⟨k, v, hk, -, h1, h2⟩ := hx
  have hk3 := (List.getElem?_eq_some_iff.mp hk).1
  exact ⟨⟨k, by omega, by omega, by omega⟩, c, by omega, by omega, by omega⟩

theorem colOuter_inv (hserves : CtxLooks ops qc sc nq ns ok) (h w : Nat) (m : M) (hm : ok m) (qs ss c : Nat) (vals : List (Fl K)) (hne : vals ≠ []) (hle : vals.length ≤ h) (hreach : Reaches (qc m) h vals.length) :
    ∀ (cs : List Ctx) (p : CMP M K) (P : Nat → Nat → Set (Set (Cell K))), p.Inv h w nq ns m qs ss P →
      (∀ c1 ∈ cs, c1 ∈ sc m ∧ Overlaps c1 c (c + 1)) →
      ∃ p', colOuter ops vals c cs p = .ok p' ∧ p'.Inv h w nq ns m qs ss (fun a b => P a b ∪ {s | ∃ c0 ∈ qc m, ∃ c1 ∈ cs, (a : Int) = c0.id ∧ (b : Int) = c1.id ∧
        s = piece ss qs (.column c vals) c0 c1}) := by
  intro cs
  induction cs with
  | nil => intro p P hp _; exact ⟨p, rfl, hp.congr (by intros; simp)⟩
  | cons c1 cs ih =>
    intro p P hp hc
    obtain ⟨hcs, hov⟩ := hc c1 (by simp)
    obtain ⟨b2, b3⟩ := hserves.sbound m hm c1 hcs
    have hpos := List.length_pos_iff.mpr hne
    obtain ⟨l, hl, hl2⟩ := hserves.query m hm 0 h (by omega)
    have hin : ∀ c0 ∈ l, 0 ≤ c0.start ∧ Overlaps c0 0 vals.length := fun c0 h0 => by
      obtain ⟨h5, h6⟩ := (hl2 c0).mp h0
      have h7 := (hserves.qbound m hm c0 h5).1
      have h8 := hreach c0 h5 h6
      obtain ⟨x, hx⟩ := h6
      exact ⟨h7, c0.start, by omega⟩
    obtain ⟨p1, h1, h2⟩ := colInner_inv h w nq ns m qs ss vals c c1.id b2 b3 l p P hp (fun c0 h0 => by
      obtain ⟨-, h7, h8⟩ := hserves.qbound m hm c0 ((hl2 c0).mp h0).1
      exact ⟨h7, h8, (sub_col ss qs c vals c0 c1 (hin c0 h0).1 (hin c0 h0).2 hov).1⟩)
    obtain ⟨p2, h3, h4⟩ := ih p1 _ h2 (fun c' hc' => hc c' (by simp [hc']))
    refine ⟨p2, ?_, h4.congr ?_⟩
    · rw [colOuter, hp.ctxs, hp.h_eq, hl]
      simp only [bind, Except.bind, h1]
      exact h3
    · intro a _ b _ s hs
      simp only [Set.mem_union, Set.mem_ofPred_eq, List.mem_cons, exists_eq_or_imp]
      constructor
      · rintro ((h5 | ⟨c0, h5, h6, h7, rfl⟩) | ⟨c0, h5, h6⟩)
        · exact .inl h5
        · exact .inr ⟨c0, ((hl2 c0).mp h5).1, .inl ⟨h6, h7, (sub_col ss qs c vals c0 c1 (hin c0 h5).1 (hin c0 h5).2 hov).2⟩⟩
        · exact .inr ⟨c0, h5, .inr h6⟩
      · rintro (h5 | ⟨c0, h5, ⟨h6, h7, rfl⟩ | h6⟩)
        · exact .inl (.inl h5)
        · have hcl := (hl2 c0).mpr ⟨h5, by
            obtain ⟨x, hx⟩ := (col_piece_empty ss qs c vals c0 c1 hs).1
            exact ⟨x, by omega⟩⟩
          exact .inl (.inr ⟨c0, hcl, h6, h7, ((sub_col ss qs c vals c0 c1 (hin c0 hcl).1 (hin c0 hcl).2 hov).2).symm⟩)
        · exact .inr ⟨c0, h5, h6⟩

theorem processColumn_inv (hserves : CtxLooks ops qc sc nq ns ok) (h w : Nat) (m : M) (hm : ok m) (qs ss c : Nat) (vals : List (Fl K)) (hne : vals ≠ []) (hle : vals.length ≤ h) (hreach : Reaches (qc m) h vals.length)
    (p : CMP M K) (P : Nat → Nat → Set (Set (Cell K))) (hp : p.Inv h w nq ns m qs ss P) :
    ∃ p', p.processColumn ops c [vals] = .ok p' ∧ p'.Inv h w nq ns m qs ss (fun a b => P a b ∪ {s | ∃ c0 ∈ qc m, ∃ c1 ∈ sc m, (a : Int) = c0.id ∧ (b : Int) = c1.id ∧
        s = piece ss qs (.column c vals) c0 c1}) := by
  obtain ⟨l, hl, hl2⟩ := hserves.series m hm c (c + 1) (by omega)
  obtain ⟨p', h1, h2⟩ := colOuter_inv hserves h w m hm qs ss c vals hne hle hreach l p P hp (fun c1 hc => (hl2 c1).mp hc)
  refine ⟨p', ?_, h2.congr ?_⟩
  · unfold processColumn
    simp only [show pyGet [vals] 0 = .ok vals from rfl, bind, Except.bind, hp.ctxs, hl]
    exact h1
  · intro a _ b _ s hs
    simp only [Set.mem_union, Set.mem_ofPred_eq]
    constructor
    · rintro (h5 | ⟨c0, h5, c1, h6, h7⟩)
      · exact .inl h5
      · exact .inr ⟨c0, h5, c1, ((hl2 c1).mp h6).1, h7⟩
    · rintro (h5 | ⟨c0, h5, c1, h6, h7, h8, rfl⟩)
      · exact .inl h5
      · exact .inr ⟨c0, h5, c1, (hl2 c1).mpr ⟨h6, (col_piece_empty ss qs c vals c0 c1 hs).2⟩, h7, h8, rfl⟩

theorem height_eq {p : CMP M K} {h w : Nat} {m : M} {qs ss : Nat} {P : Nat → Nat → Set (Set (Cell K))} (hp : p.Inv h w nq ns m qs ss P) : p.height = nq := by
  obtain ⟨D, Q, S, g1, -⟩ := hp.grids
  rw [height, g1.lead]
  rfl

theorem shiftSeries_inv {p : CMP M K} {h w : Nat} {m : M} {qs ss : Nat} {P : Nat → Nat → Set (Set (Cell K))} (hp : p.Inv h w nq ns m qs ss P) (n : Nat) (m' : M) (k : Int)
    (hm : ops.shiftSeries m n = .ok (m', k)) :
    ∃ p', p.shiftSeries ops n = .ok p' ∧ p'.Inv h w nq ns m' qs (ss + n) (fun i j => if j + k.toNat < ns then P i (j + k.toNat) else ∅) ∧
      ∀ i < nq, ∀ j < ns, p'.dist.getEntry i j = (if j + k.toNat < ns then p.dist.getEntry i (j + k.toNat : Nat) else .ok .pinf) ∧
        p'.miq.getEntry i j = (if j + k.toNat < ns then p.miq.getEntry i (j + k.toNat : Nat) else .ok (-1)) ∧
        p'.mis.getEntry i j = if j + k.toNat < ns then p.mis.getEntry i (j + k.toNat : Nat) else .ok (-1) := by
  have hh := height_eq hp
  obtain ⟨D, Q, S, g1, g2, g3, g4⟩ := hp.grids
  unfold shiftSeries
  simp only [hp.ctxs, hm, bind, Except.bind, hh]
  by_cases hk : k > 0
  · obtain ⟨d', a1, e1, e2⟩ := g1.push k.toNat (.pinf : Fl K)
    obtain ⟨s', a2, e3, e4⟩ := g3.push k.toNat (-1 : Int)
    obtain ⟨q', a3, e5, e6⟩ := g2.push k.toNat (-1 : Int)
    rw [if_pos hk]
    simp only [e1, e3, e5]
    refine ⟨_, rfl, ⟨hp.h_eq, hp.w_eq, rfl, hp.qShift, by simp [hp.sShift], _, _, _, e2, e6, e4, fun i hi j hj => ?_⟩, fun i hi j hj => ?_⟩
    · by_cases hjk : j + k.toNat < ns
      · simp only [hjk, if_true]
        exact g4 i hi _ hjk
      · simp only [hjk, if_false]
        exact ⟨by simp, by simp, .inl ⟨rfl, rfl, rfl⟩⟩
    · refine ⟨?_, ?_, ?_⟩
      · rw [e2.get i j hi hj]
        split
        · rename_i h; rw [g1.get i _ hi h]
        · rfl
      · rw [e6.get i j hi hj]
        split
        · rename_i h; rw [g2.get i _ hi h]
        · rfl
      · rw [e4.get i j hi hj]
        split
        · rename_i h; rw [g3.get i _ hi h]
        · rfl
  · rw [if_neg hk]
    have e0 : k.toNat = 0 := by omega
    refine ⟨_, rfl, ⟨hp.h_eq, hp.w_eq, rfl, hp.qShift, by simp [hp.sShift], D, Q, S, g1, g2, g3, fun i hi j hj => ?_⟩, fun i hi j hj => ?_⟩
    · simp only [e0, Nat.add_zero, hj, if_true]
      exact g4 i hi j hj
    · simp only [e0, Nat.add_zero, hj, if_true, and_self]

theorem shiftQuery_inv {p : CMP M K} {h w : Nat} {m : M} {qs ss : Nat} {P : Nat → Nat → Set (Set (Cell K))} (hp : p.Inv h w nq ns m qs ss P) (n : Nat) (m' : M) (k : Int)
    (hk : k ≤ 0) (hm : ops.shiftQuery m n = .ok (m', k)) : ∃ p', p.shiftQuery ops n = .ok p' ∧ p'.Inv h w nq ns m' (qs + n) ss P := by
  unfold shiftQuery
  simp only [hp.ctxs, hm, bind, Except.bind]
  rw [if_neg (by omega)]
  exact ⟨_, rfl, hp.h_eq, hp.w_eq, rfl, by simp [hp.qShift], hp.sShift, hp.grids⟩

/-- The state belongs to what has been seen. -/
structure Rep (ok : M → Prop) (nq ns : Nat) (p : CMP M K) (h w : Nat) (t : CtxSeen M K) : Prop where
  ok : ok t.ctxs
  inv : p.Inv h w nq ns t.ctxs t.qs t.ss (fun i j => t.pieces i (j + t.ks : Nat))
  fresh : ∀ i j : Int, ((ns + t.ks : Nat) : Int) ≤ j → t.pieces i j = ∅

theorem deliver_rep (hserves : CtxServes ops qc sc nq ns ok) {p : CMP M K} {h w : Nat} {t : CtxSeen M K} (hp : Rep ok nq ns p h w t) (d : Delivery K)
    (hd : CtxCall ops qc h w t.ctxs d) : ∃ p', p.deliver ops d = .ok p' ∧ Rep ok nq ns p' h w (t.step ops qc sc d) := by
  have fresh : ∀ (d : Delivery K) (i j : Int), ((ns + t.ks : Nat) : Int) ≤ j →
      t.pieces i j ∪ {s | ∃ c0 ∈ qc t.ctxs, ∃ c1 ∈ sc t.ctxs, c0.id = i ∧ c1.id + t.ks = j ∧ s = piece t.ss t.qs d c0 c1} = ∅ := by
    intro d i j hj
    rw [hp.fresh i j hj, Set.empty_union]
    ext s
    simp only [Set.mem_ofPred_eq, Set.mem_empty_iff_false, iff_false]
    rintro ⟨c0, -, c1, h1, -, h2, -⟩
    have := (hserves.sbound _ hp.ok c1 h1).2
    omega
  have conv : ∀ (d : Delivery K) (i j : Nat) (s : Set (Cell K)),
      (s ∈ t.pieces i (j + t.ks : Nat) ∪ {s | ∃ c0 ∈ qc t.ctxs, ∃ c1 ∈ sc t.ctxs, (i : Int) = c0.id ∧ (j : Int) = c1.id ∧ s = piece t.ss t.qs d c0 c1}) ↔
      s ∈ t.pieces i (j + t.ks : Nat) ∪ {s | ∃ c0 ∈ qc t.ctxs, ∃ c1 ∈ sc t.ctxs, c0.id = i ∧ c1.id + t.ks = ((j + t.ks : Nat) : Int) ∧ s = piece t.ss t.qs d c0 c1} := by
    intro d i j s
    simp only [Set.mem_union, Set.mem_ofPred_eq]
    constructor
    · rintro (h | ⟨c0, h0, c1, h1, h2, h3, h4⟩)
      · exact .inl h
      · exact .inr ⟨c0, h0, c1, h1, h2.symm, by omega, h4⟩
    · rintro (h | ⟨c0, h0, c1, h1, h2, h3, h4⟩)
      · exact .inl h
      · exact .inr ⟨c0, h0, c1, h1, h2.symm, by omega, h4⟩
  cases d with
  | diag d vals =>
    obtain ⟨p', h1, h2⟩ := processDiagonal_inv hserves.toCtxLooks h w t.ctxs hp.ok t.qs t.ss d vals hd.1 hd.2 p _ hp.inv
    exact ⟨p', h1, hp.ok, h2.congr fun i _ j _ s _ => conv _ i j s, fresh _⟩
  | column c vals =>
    obtain ⟨p', h1, h2⟩ := processColumn_inv hserves.toCtxLooks h w t.ctxs hp.ok t.qs t.ss c vals hd.2.1 hd.2.2.1 hd.2.2.2 p _ hp.inv
    exact ⟨p', h1, hp.ok, h2.congr fun i _ j _ s _ => conv _ i j s, fresh _⟩
  | shiftSeries n =>
    obtain ⟨m', k, hm⟩ := hd
    obtain ⟨p', h1, h2, -⟩ := shiftSeries_inv hp.inv n m' k hm
    refine ⟨p', h1, ?_⟩
    simp only [CtxSeen.step, hm]
    refine ⟨hserves.shiftS _ hp.ok _ _ _ hm, h2.congr fun i _ j _ s _ => ?_, fun i j hj => hp.fresh i j (by simp only at hj; omega)⟩
    simp only
    split
    · rw [show j + k.toNat + t.ks = j + (t.ks + k.toNat) by omega]
    · rw [hp.fresh i _ (by omega)]
  | shiftQuery n =>
    obtain ⟨m', k, hm, hk⟩ := hd
    obtain ⟨p', h1, h2⟩ := shiftQuery_inv hp.inv n m' k hk hm
    refine ⟨p', h1, ?_⟩
    simp only [CtxSeen.step, hm]
    exact ⟨hserves.shiftQ _ hp.ok _ _ _ hm, h2, hp.fresh⟩

theorem run_rep (hserves : CtxServes ops qc sc nq ns ok) {h w : Nat} : ∀ (ds : List (Delivery K)) (p : CMP M K) (t : CtxSeen M K), Rep ok nq ns p h w t →
    CtxCalls ops qc sc h w t ds → ∃ p', p.run ops ds = .ok p' ∧ Rep ok nq ns p' h w (ds.foldl (CtxSeen.step ops qc sc) t)
  | [], p, t, hp, _ => ⟨p, rfl, hp⟩
  | d :: ds, p, t, hp, hd => by
    obtain ⟨p1, h1, h2⟩ := deliver_rep hserves hp d hd.1
    obtain ⟨p2, h3, h4⟩ := run_rep hserves ds p1 _ h2 hd.2
    refine ⟨p2, ?_, h4⟩
    rw [run, List.foldlM_cons, h1]
    exact h3

theorem initialise_rep (hserves : CtxLooks ops qc sc nq ns ok) (m : M) (hm : ok m) (hns : 0 < ns) (h w : Nat) (scale : ℚ) (h1 : 1 ≤ scale) (h2 : scale ≤ 2)
    (jD : List (List (Fl K))) (jS jQ : List (List Int)) (hD : jD.length = RB.capacity scale ns) (hS : jS.length = RB.capacity scale ns) (hQ : jQ.length = RB.capacity scale ns) :
    ∃ p, initialise ops m scale h w jD jS jQ = .ok p ∧ Rep ok nq ns p h w ⟨0, 0, 0, m, fun _ _ => ∅⟩ := by
  obtain ⟨d, a1, a2⟩ := fullBuffer_grid scale h1 h2 nq ns hns (.pinf : Fl K) jD hD
  obtain ⟨s, a3, a4⟩ := fullBuffer_grid scale h1 h2 nq ns hns (-1 : Int) jS hS
  obtain ⟨q, a5, a6⟩ := fullBuffer_grid scale h1 h2 nq ns hns (-1 : Int) jQ hQ
  refine ⟨⟨w, h, m, 0, 0, d, s, q⟩, ?_, hm, ⟨rfl, rfl, rfl, rfl, rfl, _, _, _, a2, a6, a4, fun i hi j hj => ⟨by simp, by simp, .inl ⟨rfl, rfl, rfl⟩⟩⟩, fun _ _ _ => rfl⟩
  unfold initialise
  rw [if_neg (by exact not_lt.mpr h1)]
  simp only [hserves.shape m hm, bind, Except.bind]
  rw [if_neg (by omega)]
  simp only [Int.toNat_natCast, a1, a3, a5]
  rfl

end CMP
end Verif
