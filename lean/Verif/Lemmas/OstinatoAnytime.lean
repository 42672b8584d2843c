import Verif.Model.OstinatoAnytime
import Verif.Props.EndToEnd
import Verif.Props.OstinatoSubset

/-!
`OstinatoAnytime`: one calculator with its two consumers.
-/

namespace Verif
open Spec
namespace Ostinato
variable {G K : Type} [LinearOrder K]

/-! ### The consumers -/

omit [LinearOrder K] in
/-- A diagonal read the other way round. -/
theorem diagRow_swap (D : List K → List K → Fl K) (m : Nat) (s q : List K) (d : Int) :
    diagRow D m s q d = diagRow (fun a b => D b a) m q s (-d) := by
  unfold diagRow diagEntries
  rw [neg_neg, Nat.min_comm]

theorem feed_forward (gops : GenOps G K) (D : List K → List K → Fl K) (m : Nat) (s q : List K) (xs : List Int) : ∀ (p p' : MP K),
    p.run (diagDeliveries D m s q false xs) = .ok p' → feed (Side.ops gops) ⟨false, p⟩ (diagEvents D m s q false xs) = .ok ⟨false, p'⟩ := by
  induction xs with
  | nil => intro p p' h; cases h; rfl
  | cons x xs ih =>
    intro p p' h
    rw [show diagDeliveries D m s q false (x :: xs) = .diag x (diagRow D m s q x) :: diagDeliveries D m s q false xs from rfl, MP.run,
      List.foldlM_cons] at h
    obtain ⟨p1, h1, h2⟩ := bind_ok_iff.mp h
    have h1 : p.processDiagonal x [diagRow D m s q x] = .ok p1 := h1
    rw [show diagEvents D m s q false (x :: xs) = .diagonal x [diagRow D m s q x] :: diagEvents D m s q false xs from rfl, feed]
    have e : CEvent.apply (Side.ops gops) (⟨false, p⟩ : Side K) (.diagonal x [diagRow D m s q x]) = .ok ⟨false, p1⟩ := by
      show Side.processDiagonal _ _ _ = _
      unfold Side.processDiagonal
      simp only [Bool.false_eq_true, if_false, h1, bind, Except.bind, pure, Except.pure]
    simp only [e, bind, Except.bind]
    exact ih p1 p' h2

theorem feed_reverse (gops : GenOps G K) (D : List K → List K → Fl K) (m : Nat) (s q : List K) (xs : List Int) : ∀ (p p' : MP K),
    p.run (diagDeliveries (fun a b => D b a) m q s false (xs.map (- ·))) = .ok p' →
    feed (Side.ops gops) ⟨true, p⟩ (diagEvents D m s q false xs) = .ok ⟨true, p'⟩ := by
  induction xs with
  | nil => intro p p' h; cases h; rfl
  | cons x xs ih =>
    intro p p' h
    rw [show diagDeliveries (fun a b => D b a) m q s false ((x :: xs).map (- ·)) = .diag (-x) (diagRow (fun a b => D b a) m q s (-x)) ::
      diagDeliveries (fun a b => D b a) m q s false (xs.map (- ·)) from rfl, MP.run, List.foldlM_cons] at h
    obtain ⟨p1, h1, h2⟩ := bind_ok_iff.mp h
    have h1 : p.processDiagonal (-x) [diagRow (fun a b => D b a) m q s (-x)] = .ok p1 := h1
    rw [← diagRow_swap] at h1
    rw [show diagEvents D m s q false (x :: xs) = .diagonal x [diagRow D m s q x] :: diagEvents D m s q false xs from rfl, feed]
    have e : CEvent.apply (Side.ops gops) (⟨true, p⟩ : Side K) (.diagonal x [diagRow D m s q x]) = .ok ⟨true, p1⟩ := by
      show Side.processDiagonal _ _ _ = _
      unfold Side.processDiagonal
      simp only [if_true, h1, bind, Except.bind, pure, Except.pure]
    simp only [e, bind, Except.bind]
    exact ih p1 p' h2

/-- `v` is the smallest of the values of column `c` on the diagonals with `X` (+inf if there are none). -/
structure IsPart (d : Nat → K) (h c : Nat) (X : Int → Prop) (v : Fl K) : Prop where
  lower : ∀ r < h, X ((c : Int) - r) → v ≤ .fin (d r)
  attained : v = .pinf ∨ ∃ r < h, X ((c : Int) - r) ∧ v = .fin (d r)

/-- The merged profile after the diagonals `xs`. -/
theorem mp_part (δ : List K → List K → K) (m : Nat) (hm0 : 0 < m) (s q : List K) (hs : m ≤ s.length) (hq : m ≤ q.length) (xs : List Int)
    (hx : ∀ d ∈ xs, d + m ≤ s.length ∧ -d + m ≤ q.length) (p : MP K)
    (hp : MP.initialise ((q.length + 1 - m : Nat) : Int) ((s.length + 1 - m : Nat) : Int) = .ok p) :
    ∃ p', p.run (diagDeliveries (fun a b => .fin (δ a b)) m s q false xs) = .ok p' ∧ (MP.merged p'.left p'.right).length = s.length + 1 - m ∧
      ∀ c < s.length + 1 - m, ∃ v, (MP.merged p'.left p'.right)[c]? = some v ∧
        IsPart (fun r => δ (win m s c) (win m q r)) (q.length + 1 - m) c (· ∈ xs) v := by
  obtain ⟨k1, k2, k3, k4, k5⟩ := diagDeliveries_ok (fun a b => .fin (δ a b)) m hm0 s q hs hq false (by simp) (by simp) xs
    (fun d hd => ⟨(hx d hd).1, (hx d hd).2, by simp⟩)
  obtain ⟨p0, p', h1, h2, h3, -, h4⟩ := C40_merged _ _ _ k1 k2
  rw [hp] at h1
  cases h1
  refine ⟨p', h2, h3, fun c hc => ?_⟩
  obtain ⟨a, b, v, i, -, -, e, -, -, ho⟩ := h4 c hc
  obtain ⟨hcells, hmem⟩ := mem_run_cells _ k2 k3
  refine ⟨v, e, ?_, ?_⟩
  · intro r hr hX
    obtain ⟨x, hxm, y, hy, e1, e2⟩ := k5 r hr c hc (.inl hX)
    have hy' := (hmem y).mpr ⟨x, hxm, hy⟩
    obtain ⟨r', c', hr', hc', rfl⟩ := hcells y hy'
    have e1 : r' = r := by simpa using e1
    have e2 : c' = c := by simpa using e2
    subst e1 e2
    rcases ho.lower _ hy' rfl with h | h
    · exact absurd h (by simp)
    · exact h
  · rcases ho.attained with ⟨h, -⟩ | ⟨-, h⟩
    · exact .inl h
    · right
      obtain ⟨x, hxm, hy⟩ := (hmem _).mp h
      obtain ⟨d, hd, hd'⟩ := k4 x hxm _ hy
      obtain ⟨r', c', hr', hc', e⟩ := hcells _ h
      simp only [Cell.mk.injEq] at e
      obtain ⟨rfl, e2, rfl⟩ := e
      have e2 : c' = c := by exact_mod_cast e2.symm
      subst e2
      refine ⟨r', hr', ?_, rfl⟩
      rcases hd' with hd' | ⟨hd', -⟩
      · rwa [hd']
      · cases hd'

/-! ### A calculator -/

omit [LinearOrder K] in
theorem diagsDone_unique {C : Type} {ops : Ops G C K} {st st1 st2 : Anytime G C K} {xs : List Int} (hv : st.Valid [0]) (h1 : DiagsDone ops [0] xs st st1)
    (h2 : DiagsDone ops [0] xs st st2) (hpos : ∀ d ∈ xs, 0 < diagLength st.base.numQuery st.base.numSeries d) : st1 = st2 := by
  have hcount : ∀ (ls : List Int) (c : Int) (n : Nat) (N : Nat), N = n + ls.length → (∀ l ∈ ls, 0 < l) →
      diagCount (fun j => decide (N ≤ j)) (c + ls.sum + 1) ls c n = some ls.length := by
    intro ls
    induction ls with
    | nil => intro c n N hN _; simp [diagCount, hN]
    | cons l ls ih =>
      intro c n N hN hl
      have hs : 0 ≤ ls.sum := sum_nonneg' _ fun x hx => (hl x (by simp [hx])).le
      have := hl l (by simp)
      rw [List.length_cons] at hN
      rw [diagCount, if_pos ⟨by rw [List.sum_cons]; omega, by simp; omega⟩]
      have := ih (c + l) (n + 1) N (by omega) (fun x hx => hl x (by simp [hx]))
      rw [List.sum_cons, show c + (l + ls.sum) + 1 = c + l + ls.sum + 1 by ring, this]
      simp
  have hc := hcount (xs.map (diagLength st.base.numQuery st.base.numSeries)) st.calculated st.next _ rfl (by simpa using hpos)
  rw [List.length_map] at hc
  have e : ∀ st', DiagsDone ops [0] xs st st' → Anytime.diagonalLoop ops [0] (fun j => decide (st.next + xs.length ≤ j))
      (st.calculated + (xs.map (diagLength st.base.numQuery st.base.numSeries)).sum + 1) xs st = .ok st' := by
    intro st' h
    rw [diagonalLoop_iff ops [0] (by simp) _ _ xs st st' hv.covers]
    exact ⟨xs.length, hc, by rwa [List.take_length]⟩
  have := (e st1 h1).symm.trans (e st2 h2)
  cases this
  rfl

/-- The state of the calculator of the pair of series `s`, `q` after the diagonals `xs`. -/
structure CalcAt (gops : GenOps G K) (δ : List K → List K → K) (m : Nat) (s q : List K) (st0 st : Anytime G (Side K) K) (k : Nat) : Prop where
  done : DiagsDone (Side.ops gops) [0] (st0.order.take k) st0 st
  le : k ≤ st0.order.length
  cons : ∃ p p' : MP K, st.base.cons = [(⟨false, p⟩, [0]), (⟨true, p'⟩, [0])] ∧
    ((MP.merged p.left p.right).length = s.length + 1 - m ∧ ∀ c < s.length + 1 - m, ∃ v, (MP.merged p.left p.right)[c]? = some v ∧
      IsPart (fun r => δ (win m s c) (win m q r)) (q.length + 1 - m) c (· ∈ st0.order.take k) v) ∧
    ((MP.merged p'.left p'.right).length = q.length + 1 - m ∧ ∀ c < q.length + 1 - m, ∃ v, (MP.merged p'.left p'.right)[c]? = some v ∧
      IsPart (fun r => δ (win m s r) (win m q c)) (s.length + 1 - m) c (fun d => -d ∈ st0.order.take k) v)

section Calc
variable {gops : GenOps G K} {m : Nat} {N : Nat} {M : Option Nat} {δ : List K → List K → K} {Ok : GSt K → GOp K → Prop} {Inv : G → GSt K → Prop}

/-- A calculator as `__init__` makes it. -/
structure Made (gops : GenOps G K) (m : Nat) (N : Nat) (M : Option Nat) (δ : List K → List K → K) (Ok : GSt K → GOp K → Prop) (Inv : G → GSt K → Prop) (s q : List K) (st0 : Anytime G (Side K) K) : Prop where
  serves : Serves gops m N M (fun a b => .fin (δ a b)) Ok Inv
  ok : ∀ d, (GSt.mk s q none).Valid m M (.diag d) → Ok ⟨s, q, none⟩ (.diag d)
  state : ∃ g p p', Assembled st0 g [⟨false, p⟩, ⟨true, p'⟩] false (q.length + 1 - m) (s.length + 1 - m) (-1) ∧ Inv g ⟨s, q, none⟩ ∧
    MP.initialise ((q.length + 1 - m : Nat) : Int) ((s.length + 1 - m : Nat) : Int) = .ok p ∧
    MP.initialise ((s.length + 1 - m : Nat) : Int) ((q.length + 1 - m : Nat) : Int) = .ok p'

variable {s q : List K} {st0 : Anytime G (Side K) K}

theorem Made.valid (h : Made gops m N M δ Ok Inv s q st0) : st0.Valid [0] ∧ st0.next = 0 := by
  obtain ⟨g, p, p', ha, -⟩ := h.state
  exact ⟨ha.valid, ha.next⟩

theorem Made.order (h : Made gops m N M δ Ok Inv s q st0) (hs : m ≤ s.length) (hq : m ≤ q.length) (d : Int) :
    d ∈ st0.order ↔ d + m ≤ s.length ∧ -d + m ≤ q.length := by
  obtain ⟨g, p, p', ha, -⟩ := h.state
  rw [ha.valid.order.mem_iff]
  unfold Anytime.diagonals
  rw [ha.self, ha.rows, ha.cols]
  simp only [Bool.false_eq_true, if_false, mem_pyRange]
  omega

theorem Made.calcAt (h : Made gops m N M δ Ok Inv s q st0) (hm0 : 0 < m) (hs : m ≤ s.length) (hq : m ≤ q.length) (k : Nat) (hk : k ≤ st0.order.length) :
    ∃ st, CalcAt gops δ m s q st0 st k := by
  obtain ⟨g, p, p', ha, hi, i1, i2⟩ := h.state
  have hx : ∀ d ∈ st0.order.take k, d + m ≤ s.length ∧ -d + m ≤ q.length := fun d hd => (h.order hs hq d).mp (List.mem_of_mem_take hd)
  obtain ⟨p1, a1, a2, a3⟩ := mp_part δ m hm0 s q hs hq (st0.order.take k) hx p i1
  obtain ⟨p2, b1, b2, b3⟩ := mp_part (fun a b => δ b a) m hm0 q s hq hs ((st0.order.take k).map (- ·)) (by
    intro d hd
    obtain ⟨d', hd', rfl⟩ := List.mem_map.mp hd
    have := hx d' hd'
    omega) p' i2
  obtain ⟨st, h1, h2⟩ := diagsDone_ok h.serves (Side.ops gops) rfl s q hm0 hs hq h.ok ha (by omega) (by simp) hi (st0.order.take k)
    (List.take_sublist _ _) [⟨false, p1⟩, ⟨true, p2⟩] (.cons (feed_forward _ _ _ _ _ _ _ _ a1) (.cons (feed_reverse _ _ _ _ _ _ _ _ b1) .nil))
  refine ⟨st, h1, hk, p1, p2, h2, ⟨a2, a3⟩, b2, fun c hc => ?_⟩
  obtain ⟨v, v1, v2⟩ := b3 c hc
  refine ⟨v, v1, ?_⟩
  have e : (fun d => -d ∈ st0.order.take k) = (· ∈ (st0.order.take k).map (- ·)) := by
    funext d
    simp only [List.mem_map, eq_iff_iff]
    exact ⟨fun h => ⟨-d, h, neg_neg d⟩, fun ⟨d', h, e⟩ => by rw [← e, neg_neg]; exact h⟩
  rw [e]
  exact v2

theorem CalcAt.valid (h : Made gops m N M δ Ok Inv s q st0) {st : Anytime G (Side K) K} {k : Nat} (hc : CalcAt gops δ m s q st0 st k) :
    st.Valid [0] ∧ st.next = k ∧ st.order = st0.order ∧ st.total = st0.total := by
  obtain ⟨hv, hn⟩ := h.valid
  have hd := hc.done
  have := hc.le
  refine ⟨?_, ?_, hd.fields.2.2.2.2.2.1, hd.fields.2.2.2.2.2.2.1⟩
  · refine DiagsDone.valid (ops := Side.ops gops) (k := k) ?_ ?_ hv
    · rwa [hn, List.drop_zero]
    · rwa [hn, List.drop_zero]
  · rw [hd.fields.2.1, hn, List.length_take]; omega

/-- One call of `calculate_diagonals`. -/
theorem CalcAt.step (h : Made gops m N M δ Ok Inv s q st0) (hm0 : 0 < m) (hs : m ≤ s.length) (hq : m ≤ q.length) {st : Anytime G (Side K) K} {k : Nat}
    (hc : CalcAt gops δ m s q st0 st k) (ints : Nat → Bool) (p : PyNum) (v : Int) (hp : ratioToInt p st0.total st0.total = .ok v) :
    ∃ st' k', st.calculateDiagonals (Side.ops gops) [0] ints p = .ok st' ∧ k ≤ k' ∧ CalcAt gops δ m s q st0 st' k' ∧
      (v = st0.total → (∀ n, ints n = false) → k' = st0.order.length) := by
  obtain ⟨hv, hn, ho, ht⟩ := hc.valid h
  have htot : 0 ≤ st.total := by rw [hv.total]; exact lens_nonneg _ _
  rw [← ht] at hp
  obtain ⟨k1, hk1⟩ := diagCount_total ints v ((st.order.drop st.next).map (diagLength st.base.numQuery st.base.numSeries)) st.calculated
    st.next (by rw [hv.rest]; exact (ratioToInt_nonneg _ _ _ _ htot hp).2)
  have hk1le := diagCount_le _ _ _ _ _ _ hk1
  rw [List.length_map, List.length_drop, hn, ho] at hk1le
  have := hc.le
  obtain ⟨st', hc'⟩ := h.calcAt hm0 hs hq (k + k1) (by omega)
  obtain ⟨hv0, hn0⟩ := h.valid
  have hsplit := hc'.done
  rw [show st0.order.take (k + k1) = st0.order.take k ++ (st0.order.drop k).take k1 from List.take_add] at hsplit
  obtain ⟨st1, d1, d2⟩ := (DiagsDone.append ..).mp hsplit
  have e := diagsDone_unique hv0 d1 hc.done (fun d hd => hv0.pos d (List.mem_of_mem_take hd))
  subst e
  refine ⟨st', k + k1, ?_, by omega, hc', ?_⟩
  · rw [calculateDiagonals_iff _ _ _ _ v _ _ hv hp]
    exact ⟨k1, hk1, by rwa [hn, ho]⟩
  · rintro hvt hint
    by_contra hlt
    obtain ⟨-, c2⟩ := diagCount_spec _ _ _ _ _ _ hk1
    have c3 : v ≤ st'.calculated := by
      rw [d2.fields.1]
      by_contra h'
      refine c2 ⟨?_, hint _⟩
      rw [← List.map_take, hn, ho]
      exact not_le.mp h'
    obtain ⟨hv', hn', ho', ht'⟩ := hc'.valid h
    have c4 := hv'.total
    rw [← List.take_append_drop st'.next st'.order, lens_append, ← hv'.calculated] at c4
    have hle' := hc'.le
    have c5 : 0 < lens st' (st'.order.drop st'.next) := by
      obtain ⟨x, l, e⟩ : ∃ x l, st'.order.drop st'.next = x :: l := by
        cases e : st'.order.drop st'.next with
        | nil =>
          rw [List.drop_eq_nil_iff, hn', ho'] at e
          omega
        | cons x l => exact ⟨x, l, rfl⟩
      have h5 := hv'.pos x (List.mem_of_mem_drop (by rw [e]; simp))
      have h6 := lens_nonneg st' l
      rw [e]
      unfold lens at h6 ⊢
      rw [List.map_cons, List.sum_cons]
      omega
    omega

end Calc
end Ostinato
end Verif
