import Verif.Lemmas.EndToEnd
import Verif.Spec.StreamMatrix
import Verif.Props.DistanceMatrix
import Verif.Props.Streaming

/-!
A streaming calculator with one generator and a `DistanceMatrix`: what the calls do.
-/

namespace Verif
open Spec
variable {G C K : Type}

/-! ### The matrix -/

theorem Mat.setMany_append (a : Mat K) (l l' : List ((Nat × Nat) × K)) : a.setMany (l ++ l') = (a.setMany l).setMany l' := by
  unfold Mat.setMany; rw [List.foldl_append]

theorem Mat.setMany_column (a : Mat K) (c : Nat) (vals : List K) (r c' : Nat) :
    a.setMany (vals.zipIdx.map fun x => ((x.2, c), x.1)) r c' = if c' = c then (vals[r]?).getD (a r c') else a r c' := by
  induction vals using List.reverseRecOn generalizing r with
  | nil => simp [Mat.setMany]
  | append_singleton vs v ih =>
    rw [List.zipIdx_append, List.map_append, Mat.setMany_append]
    simp only [List.zipIdx_singleton, List.map_cons, List.map_nil, Mat.setMany, List.foldl_cons, List.foldl_nil, Mat.set]
    unfold Mat.setMany at ih
    rw [ih]
    simp only [Nat.zero_add]
    by_cases hc : c' = c
    · subst hc
      simp only [and_true, if_true]
      rcases Nat.lt_trichotomy r vs.length with h | h | h
      · rw [if_neg (by omega), List.getElem?_append_left h]
      · rw [if_pos h, h]; simp
      · rw [if_neg (by omega), List.getElem?_eq_none (by omega), List.getElem?_eq_none (by simp; omega)]
    · rw [if_neg (by simp [hc]), if_neg hc]
      rw [if_neg hc]

theorem DM.processColumn_ok (p : DM K) (c : Nat) (vals : List (Fl K)) (hc : c < p.w) (hv : vals.length ≤ p.h) :
    ∃ p', p.processColumn c [vals] = .ok p' ∧ p'.h = p.h ∧ p'.w = p.w ∧
      ∀ r c', p'.m r c' = if c' = c then (vals[r]?).getD (p.m r c') else p.m r c' := by
  have e3 : pyTo (List.range p.h) vals.length = List.range vals.length := by
    rw [pyTo_nat, List.take_range, Nat.min_eq_left hv]
  have e4 : wrapIdx p.w (c : Int) = .ok c := by
    unfold wrapIdx
    simp only [show ¬ ((c : Int) < 0) by omega, if_false]
    rw [if_pos (by omega)]
    rfl
  have e5 := DM.broadcastTo_ok (List.range vals.length).length vals (by simp)
  refine ⟨{ p with m := p.m.setMany (vals.zipIdx.map fun x => ((x.2, c), x.1)) }, ?_, rfl, rfl, fun r c' => Mat.setMany_column _ _ _ _ _⟩
  unfold DM.processColumn
  rw [e4]
  simp only [show pyGet [vals] 0 = .ok vals from rfl, bind, Except.bind, pure, Except.pure]
  rw [e3, e5]
  show Except.ok _ = Except.ok _
  rw [DM.zip_range_zipIdx]

/-- Feeding the columns `xs`. -/
theorem DM.feed_columns (gops : GenOps G K) (row : Nat → List (Fl K)) (h w : Nat) (xs : List Nat) (hnd : xs.Nodup) (hx : ∀ c ∈ xs, c < w ∧ (row c).length ≤ h) :
    ∀ p : DM K, p.h = h → p.w = w →
    ∃ p', feed (DM.ops gops) p (xs.map fun c : Nat => .column (c : Int) [row c]) = .ok p' ∧ p'.h = h ∧ p'.w = w ∧
      ∀ r c, p'.m r c = if c ∈ xs then ((row c)[r]?).getD (p.m r c) else p.m r c := by
  induction xs with
  | nil => intro p h1 h2; exact ⟨p, rfl, h1, h2, by simp⟩
  | cons x xs ih =>
    intro p h1 h2
    rw [List.nodup_cons] at hnd
    obtain ⟨p1, e1, e2, e3, e4⟩ := p.processColumn_ok x (row x) (by rw [h2]; exact (hx x (by simp)).1) (by rw [h1]; exact (hx x (by simp)).2)
    obtain ⟨p2, f1, f2, f3, f4⟩ := ih hnd.2 (fun c hc => hx c (by simp [hc])) p1 (e2.trans h1) (e3.trans h2)
    refine ⟨p2, ?_, f2, f3, fun r c => ?_⟩
    · rw [List.map_cons, feed]
      rw [show CEvent.apply (DM.ops gops) p (.column (x : Int) [row x]) = .ok p1 from e1]
      exact f1
    · rw [f4, e4]
      by_cases hc : c = x
      · subst hc
        simp [hnd.1]
      · simp [hc]

/-! ### The invariant -/

/-- The value belonging to the stream position (`r`, `c`). -/
def cellVal (D : List K → List K → Fl K) (m : Nat) (b : Int) (u : MSt K) (r c : Nat) : Fl K :=
  if (r : Int) - c ≤ b ∧ (c : Int) - r ≤ b then .pinf else D (win m u.s c) (win m u.q r)

structure MatInv (Inv : G → GSt K → Prop) (D : List K → List K → Fl K) (m N : Nat) (M : Option Nat) (b : Int) (st : Streaming G (DM K)) (u : MSt K) : Prop where
  gen : ∃ g last, st.base.gens = [(g, 0)] ∧ Inv g ⟨lastN N u.s, lastN (M.getD N) u.q, last⟩ ∧ ∀ t e, last = some (t, e) → t ≤ st.base.lastCol
  mat : ∃ p, st.base.cons = [(p, [0])] ∧ p.h = M.getD N + 1 - m ∧ p.w = N + 1 - m ∧ ∀ r < M.getD N + 1 - m, ∀ c < N + 1 - m,
    (u.done (r + (u.q.length - M.getD N)) (c + (u.s.length - N)) →
      p.m r c = cellVal D m b u (r + (u.q.length - M.getD N)) (c + (u.s.length - N))) ∧
    (¬ u.done (r + (u.q.length - M.getD N)) (c + (u.s.length - N)) → p.m r c = .nan)
  selfJoin : st.base.selfJoin = M.isNone
  m_eq : st.base.m = m
  nDim : st.base.nDim = 1
  cols : st.base.numSeries = ((N + 1 - m : Nat) : Int)
  rows : st.base.numQuery = ((M.getD N + 1 - m : Nat) : Int)
  buffer : st.base.buffer = b
  last : st.base.lastCol + 1 = ((u.next - (u.s.length - N) : Nat) : Int)
  streamedS : st.streamedSeries = u.s.length
  streamedQ : M ≠ none → st.streamedQuery = u.q.length
  self : M = none → u.q = u.s
  done : ∀ r c, u.done r c → c + m ≤ u.s.length ∧ r + m ≤ u.q.length
  next : u.next ≤ u.s.length + 1 - m

theorem win_append (m : Nat) (s v : List K) (c : Nat) (h : c + m ≤ s.length) : win m (s ++ v) c = win m s c := by
  unfold win
  rw [List.drop_append, List.take_append]
  have : m - (s.drop c).length = 0 := by rw [List.length_drop]; omega
  rw [this]; simp

theorem win_lastN (m N : Nat) (s : List K) (c : Nat) : win m (lastN N s) c = win m s (c + (s.length - N)) := by
  unfold win lastN
  rw [List.drop_drop, Nat.add_comm]

theorem cellVal_append (D : List K → List K → Fl K) (m : Nat) (b : Int) (u : MSt K) (v v' : List K) (n : Nat) (d : Nat → Nat → Prop) (r c : Nat)
    (h1 : c + m ≤ u.s.length) (h2 : r + m ≤ u.q.length) : cellVal D m b ⟨u.s ++ v, u.q ++ v', n, d⟩ r c = cellVal D m b u r c := by
  unfold cellVal
  simp only [win_append m _ _ _ h1, win_append m _ _ _ h2]

/-- The calls of the calculator that stand for the abstract calls. -/
def IsCall (W : Nat) : MOp K → Streaming.Op K → Prop
  | .series v, .series a => a = .d2 [v.map .fin] v.length ∨ ∃ x, v = [x] ∧ a = .d1 [.fin x]
  | .query v, .query a => a = .d2 [v.map .fin] v.length ∨ ∃ x, v = [x] ∧ a = .d1 [.fin x]
  | .columns k, .columns ints upto => ints = (fun _ => false) ∧ (upto = .int k ∨ ∃ x : ℚ, upto = .float (.fin x) ∧ 0 ≤ x ∧ x ≤ 1 ∧ k = ⌈x * W⌉)
  | _, _ => False

theorem toRows_one (v : List K) (a : NDArray K) (h : a = .d2 [v.map .fin] v.length ∨ ∃ x, v = [x] ∧ a = .d1 [.fin x]) :
    Streaming.toRows 1 a = .ok ([v.map .fin], v.length) := by
  rcases h with rfl | ⟨x, rfl, rfl⟩ <;> simp [Streaming.toRows]

theorem shiftOf_eq (N a n : Nat) : Streaming.shiftOf (N : Int) (a : Int) n = ((a + n - N - (a - N) : Nat) : Int) := by
  unfold Streaming.shiftOf; split <;> omega

theorem appendGens_one (f : G → List (Fl K) → Except PyErr G) (v : List (Fl K)) (g g' : G) (h : f g v = .ok g') :
    Streaming.appendGens f [v] [(g, 0)] = .ok [(g', 0)] := by
  unfold Streaming.appendGens
  simp [List.mapM_cons, show pyGet [v] (0 : Int) = .ok v from rfl, h, bind, Except.bind, pure, Except.pure]

theorem shiftCons_one (f : C → Except PyErr C) (p p' : C) (h : f p = .ok p') : Streaming.shiftCons f [(p, [0])] = .ok [(p', [0])] := by
  unfold Streaming.shiftCons
  simp [List.mapM_cons, h, bind, Except.bind, pure, Except.pure]

theorem series_inv {gops : GenOps G K} {m N : Nat} {M : Option Nat} {D : List K → List K → Fl K} {Ok : GSt K → GOp K → Prop}
    {Inv : G → GSt K → Prop} (H : Serves gops m N M D Ok Inv) (hm0 : 0 < m) (hN : m ≤ N) (hM : ∀ M', M = some M' → m ≤ M') (b : Int) (st : Streaming G (DM K)) (u : MSt K)
    (hi : MatInv Inv D m N M b st u) (v : List K) (a : NDArray K) (ha : a = .d2 [v.map .fin] v.length ∨ ∃ x, v = [x] ∧ a = .d1 [.fin x])
    (hok : ∀ w, Ok w (.series v)) : ∃ st', st.appendSeries (DM.ops gops) a = .ok st' ∧ MatInv Inv D m N M b st' (u.step m N M (.series v)) := by
  obtain ⟨g, last, g1, g2, g3⟩ := hi.gen
  obtain ⟨p, p1, p2, p3, p4⟩ := hi.mat
  obtain ⟨g', e1, e2⟩ := H.series g _ v g2 (hok _)
  have hs := hi.selfJoin
  have hwin : st.base.numSeries + st.base.m - 1 = (N : Int) := by rw [hi.cols, hi.m_eq]; omega
  set k : Nat := u.s.length + v.length - N - (u.s.length - N) with hk
  have hstep : ∃ last', (GSt.mk (lastN N u.s) (lastN (M.getD N) u.q) last).step N M (.series v) =
      ⟨lastN N (u.s ++ v), lastN (M.getD N) (if M.isNone then u.q ++ v else u.q), last'⟩ ∧
      ∀ t e, last' = some (t, e) → t ≤ (if k ≠ 0 then max (-1) (st.base.lastCol - k) else st.base.lastCol) := by
    unfold GSt.step
    simp only
    split
    · rename_i h0
      rw [List.length_eq_zero_iff] at h0
      subst h0
      refine ⟨last, by simp, ?_⟩
      have : k = 0 := by simp [hk]
      simpa [this] using g3
    · cases M with
      | none =>
        refine ⟨none, ?_, by simp⟩
        simp [lastN_lastN_append, hi.self rfl]
      | some M' =>
        refine ⟨_, by simp [lastN_lastN_append]; rfl, ?_⟩
        intro t e h
        cases hl : last with
        | none => rw [hl] at h; cases h
        | some x =>
          rw [hl] at h
          simp only [Option.map_some, Option.some.injEq, Prod.mk.injEq] at h
          have h3 := g3 x.1 x.2 (by rw [hl])
          split <;> omega
  obtain ⟨last', w1, w2⟩ := hstep
  rw [w1] at e2
  have hd := hi.done
  have hnx := hi.next
  have hl := hi.last
  have happ : Streaming.appendGens (DM.ops gops).appendSeries [v.map .fin] st.base.gens = .ok [(g', 0)] := by
    rw [g1]; exact appendGens_one _ _ _ _ e1
  have hsh : Streaming.shiftOf (st.base.numSeries + st.base.m - 1) st.streamedSeries v.length = (k : Int) := by
    rw [hwin, hi.streamedS, shiftOf_eq]
  have hrows : Streaming.toRows st.base.nDim a = .ok ([v.map .fin], v.length) := by rw [hi.nDim]; exact toRows_one v a ha
  -- the matrix after the shift
  obtain ⟨p', q1, q2, q3, q4⟩ : ∃ p' : DM K, (if (k : Int) ≠ 0 then Streaming.shiftBoth (DM.ops gops) st.base.selfJoin (k : Int) st.base.cons else pure st.base.cons) =
      .ok [(p', [0])] ∧ p'.h = p.h ∧ p'.w = p.w ∧ ∀ r < p.h, ∀ c < p.w, p'.m r c =
        if c + k < p.w ∧ (M = none → r + k < p.h) then p.m (if M = none then r + k else r) (c + k) else .nan := by
    rcases Nat.eq_zero_or_pos k with h0 | h0
    · rw [h0]
      refine ⟨p, by simp [p1, pure, Except.pure], rfl, rfl, fun r hr c hc => ?_⟩
      simp [hr, hc]
    · rw [if_pos (by omega)]
      unfold Streaming.shiftBoth
      rw [p1, shiftCons_one _ p (p.shiftSeries k) rfl]
      have hh : (p.shiftSeries k).h = p.h := by unfold DM.shiftSeries; split <;> rfl
      have hw : (p.shiftSeries k).w = p.w := by unfold DM.shiftSeries; split <;> rfl
      simp only [bind, Except.bind]
      cases M with
      | none =>
        rw [hs]
        simp only [Option.isNone_none, if_true]
        refine ⟨(p.shiftSeries k).shiftQuery k, shiftCons_one _ _ _ rfl, ?_, ?_, fun r hr c hc => ?_⟩
        · rw [← hh]; unfold DM.shiftQuery; split <;> rfl
        · rw [← hw]; unfold DM.shiftQuery; split <;> rfl
        · rw [(C44_shift (p.shiftSeries k) k r (by rw [hh]; exact hr) c (by rw [hw]; exact hc)).2, hh]
          by_cases hrk : r + k < p.h
          · rw [if_pos hrk, (C44_shift p k (r + k) hrk c hc).1]
            simp [hrk]
          · rw [if_neg hrk, if_neg (by simp [hrk])]
      | some M' =>
        rw [hs]
        simp only [Option.isNone_some, Bool.false_eq_true, if_false]
        refine ⟨p.shiftSeries k, rfl, hh, hw, fun r hr c hc => ?_⟩
        rw [(C44_shift p k r hr c hc).1]
        simp
  refine ⟨{ st with base := { st.base with gens := [(g', 0)], cons := [(p', [0])], lastCol := if k ≠ 0 then max (-1) (st.base.lastCol - k) else st.base.lastCol }
                    streamedSeries := st.streamedSeries + v.length }, ?_, ?_⟩
  · unfold Streaming.appendSeries
    simp only [hrows, happ, hsh, bind, Except.bind]
    split
    · rename_i h0
      rw [if_pos h0] at q1
      rw [q1]
      have : k ≠ 0 := by omega
      simp [this, pure, Except.pure]
    · rename_i h0
      rw [if_neg h0] at q1
      simp only [pure, Except.pure, Except.ok.injEq] at q1
      have h0 : k = 0 := by omega
      simp [h0, ← q1, pure, Except.pure]
  · refine ⟨⟨g', last', rfl, e2, w2⟩, ⟨p', rfl, q2.trans p2, q3.trans p3, ?_⟩, hs, hi.m_eq, hi.nDim, hi.cols, hi.rows, hi.buffer, ?_, ?_, ?_, ?_, ?_, ?_⟩
    · intro r hr c hc
      have hq4 := q4 r (by omega) c (by omega)
      rw [p2, p3] at hq4
      simp only [MSt.step, List.length_append]
      -- old positions
      have hcol : c + (u.s.length + v.length - N) = (c + k) + (u.s.length - N) := by omega
      have hrow : r + ((if M.isNone then u.q ++ v else u.q).length - M.getD N) = (if M = none then r + k else r) + (u.q.length - M.getD N) := by
        cases M with
        | none => rw [hi.self rfl]; simp; omega
        | some M' => simp
      have hq' : ∃ v', (if M.isNone then u.q ++ v else u.q) = u.q ++ v' := by
        split
        · exact ⟨v, rfl⟩
        · exact ⟨[], by simp⟩
      rw [hrow, hcol]
      by_cases hin : c + k < N + 1 - m ∧ (M = none → r + k < M.getD N + 1 - m)
      · rw [if_pos hin] at hq4
        rw [hq4]
        have hr' : (if M = none then r + k else r) < M.getD N + 1 - m := by
          split
          · rename_i h; exact hin.2 h
          · exact hr
        obtain ⟨o1, o2⟩ := p4 _ hr' (c + k) hin.1
        refine ⟨fun hdn => ?_, o2⟩
        obtain ⟨d1, d2⟩ := hd _ _ hdn
        obtain ⟨v', hv'⟩ := hq'
        rw [o1 hdn, hv', cellVal_append D m b u v v' u.next u.done _ _ d1 d2]
      · rw [if_neg hin] at hq4
        rw [hq4]
        refine ⟨fun hdn => ?_, fun _ => rfl⟩
        exfalso
        obtain ⟨d1, d2⟩ := hd _ _ hdn
        apply hin
        refine ⟨by omega, fun h => ?_⟩
        subst h
        have := hi.self rfl
        rw [this] at d2
        simp only [if_true, Option.getD_none] at d2 ⊢
        omega
    · simp only [MSt.step, List.length_append]
      split <;> omega
    · simp only [MSt.step, List.length_append, hi.streamedS]; omega
    · intro h
      rw [← Option.isSome_iff_ne_none] at h
      have hn : M.isNone = false := by cases M <;> simp at h ⊢
      simp only [MSt.step, hn, Bool.false_eq_true, if_false]
      exact hi.streamedQ (by rintro rfl; simp at h)
    · intro h
      subst h
      simp [MSt.step, hi.self rfl]
    · intro r c hdn
      obtain ⟨d1, d2⟩ := hd r c hdn
      simp only [MSt.step, List.length_append]
      refine ⟨by omega, ?_⟩
      split
      · rw [List.length_append]; omega
      · exact d2
    · simp only [MSt.step, List.length_append]; omega

theorem query_inv {gops : GenOps G K} {m N M : Nat} {D : List K → List K → Fl K} {Ok : GSt K → GOp K → Prop}
    {Inv : G → GSt K → Prop} (H : Serves gops m N (some M) D Ok Inv) (hm0 : 0 < m) (hN : m ≤ N) (hM : m ≤ M) (b : Int) (st : Streaming G (DM K)) (u : MSt K)
    (hi : MatInv Inv D m N (some M) b st u) (v : List K) (a : NDArray K) (ha : a = .d2 [v.map .fin] v.length ∨ ∃ x, v = [x] ∧ a = .d1 [.fin x])
    (hok : ∀ w, Ok w (.query v)) : ∃ st', st.appendQuery (DM.ops gops) a = .ok st' ∧ MatInv Inv D m N (some M) b st' (u.step m N (some M) (.query v)) := by
  obtain ⟨g, last, g1, g2, g3⟩ := hi.gen
  obtain ⟨p, p1, p2, p3, p4⟩ := hi.mat
  obtain ⟨g', e1, e2⟩ := H.query g _ v g2 (hok _)
  have hs := hi.selfJoin
  have hsq := hi.streamedQ (by simp)
  have hwin : st.base.numQuery + st.base.m - 1 = (M : Int) := by rw [hi.rows, hi.m_eq]; simp; omega
  set k : Nat := u.q.length + v.length - M - (u.q.length - M) with hk
  have hstep : ∃ last', (GSt.mk (lastN N u.s) (lastN M u.q) last).step N (some M) (.query v) =
      ⟨lastN N u.s, lastN M (u.q ++ v), last'⟩ ∧ ∀ t e, last' = some (t, e) → t ≤ st.base.lastCol := by
    unfold GSt.step
    simp only
    split
    · rename_i h0
      rw [List.length_eq_zero_iff] at h0
      subst h0
      exact ⟨last, by simp, g3⟩
    · exact ⟨none, by simp [lastN_lastN_append], by simp⟩
  obtain ⟨last', w1, w2⟩ := hstep
  simp only [Option.getD_some] at e2 p2 p4
  rw [w1] at e2
  have hd := hi.done
  have happ : Streaming.appendGens (DM.ops gops).appendQuery [v.map .fin] st.base.gens = .ok [(g', 0)] := by
    rw [g1]; exact appendGens_one _ _ _ _ e1
  have hsh : Streaming.shiftOf (st.base.numQuery + st.base.m - 1) st.streamedQuery v.length = (k : Int) := by
    rw [hwin, hsq, shiftOf_eq]
  have hrows : Streaming.toRows st.base.nDim a = .ok ([v.map .fin], v.length) := by rw [hi.nDim]; exact toRows_one v a ha
  obtain ⟨p', q1, q2, q3, q4⟩ : ∃ p' : DM K, (if (k : Int) ≠ 0 then Streaming.shiftCons (fun c => (DM.ops gops).shiftQuery c (k : Int)) st.base.cons else pure st.base.cons) =
      .ok [(p', [0])] ∧ p'.h = p.h ∧ p'.w = p.w ∧ ∀ r < p.h, ∀ c < p.w, p'.m r c =
        if r + k < p.h then p.m (r + k) c else .nan := by
    rcases Nat.eq_zero_or_pos k with h0 | h0
    · rw [h0]
      refine ⟨p, by simp [p1, pure, Except.pure], rfl, rfl, fun r hr c hc => ?_⟩
      simp [hr]
    · rw [if_pos (by omega), p1]
      refine ⟨p.shiftQuery k, shiftCons_one _ _ _ rfl, ?_, ?_, fun r hr c hc => (C44_shift p k r hr c hc).2⟩
      · unfold DM.shiftQuery; split <;> rfl
      · unfold DM.shiftQuery; split <;> rfl
  refine ⟨{ st with base := { st.base with gens := [(g', 0)], cons := [(p', [0])] }
                    streamedQuery := st.streamedQuery + v.length }, ?_, ?_⟩
  · unfold Streaming.appendQuery
    rw [hs]
    simp only [Option.isNone_some, Bool.false_eq_true, if_false, hrows, happ, hsh, bind, Except.bind]
    split
    · rename_i h0
      rw [if_pos h0] at q1
      rw [q1]
      simp [pure, Except.pure, hs]
    · rename_i h0
      rw [if_neg h0] at q1
      simp only [pure, Except.pure, Except.ok.injEq] at q1
      simp [← q1, pure, Except.pure, hs]
  · refine ⟨⟨g', last', rfl, e2, w2⟩, ⟨p', rfl, q2.trans p2, q3.trans p3, ?_⟩, hs, hi.m_eq, hi.nDim, hi.cols, hi.rows, hi.buffer, hi.last, hi.streamedS, ?_, by simp, ?_, hi.next⟩
    · intro r hr c hc
      simp only [Option.getD_some] at hr
      have hq4 := q4 r (by omega) c (by omega)
      rw [p2] at hq4
      simp only [MSt.step, List.length_append, Option.getD_some]
      have hrow : r + (u.q.length + v.length - M) = (r + k) + (u.q.length - M) := by omega
      rw [hrow]
      by_cases hin : r + k < M + 1 - m
      · rw [if_pos hin] at hq4
        rw [hq4]
        obtain ⟨o1, o2⟩ := p4 (r + k) hin c hc
        refine ⟨fun hdn => ?_, o2⟩
        obtain ⟨d1, d2⟩ := hd _ _ hdn
        rw [o1 hdn]
        have := cellVal_append D m b u [] v u.next u.done _ _ d1 d2
        rw [List.append_nil] at this
        exact this.symm
      · rw [if_neg hin] at hq4
        rw [hq4]
        refine ⟨fun hdn => ?_, fun _ => rfl⟩
        exfalso
        obtain ⟨d1, d2⟩ := hd _ _ hdn
        omega
    · intro _
      simp only [MSt.step, List.length_append, hsq]; omega
    · intro r c hdn
      obtain ⟨d1, d2⟩ := hd r c hdn
      simp only [MSt.step, List.length_append]
      omega

set_option maxHeartbeats 1000000 in
theorem columns_inv {gops : GenOps G K} {m N : Nat} {M : Option Nat} {D : List K → List K → Fl K} {Ok : GSt K → GOp K → Prop}
    {Inv : G → GSt K → Prop} (H : Serves gops m N M D Ok Inv) (hm0 : 0 < m) (hN : m ≤ N) (hM : ∀ M', M = some M' → m ≤ M') (b : Int) (hb : -1 ≤ b)
    (hbj : M ≠ none → b = -1) (st : Streaming G (DM K)) (u : MSt K)
    (hi : MatInv Inv D m N M b st u) (k : Int) (upto : PyNum) (hk : upto = .int k ∨ ∃ x : ℚ, upto = .float (.fin x) ∧ 0 ≤ x ∧ x ≤ 1 ∧ k = ⌈x * (N + 1 - m : Nat)⌉)
    (hv : u.Valid m M (.columns k))
    (hok : ∀ (l : Option (Int × Bool)) (c : Nat), c + m ≤ (lastN N u.s).length → m ≤ (lastN (M.getD N) u.q).length →
      (GSt.mk (lastN N u.s) (lastN (M.getD N) u.q) l).Safe (.column c) → Ok ⟨lastN N u.s, lastN (M.getD N) u.q, l⟩ (.column c)) :
    ∃ st', st.calculateColumns (DM.ops gops) [0] (fun _ => false) none upto = .ok st' ∧ MatInv Inv D m N M b st' (u.step m N M (.columns k)) := by
  obtain ⟨g, last, g1, g2, g3⟩ := hi.gen
  obtain ⟨p, p1, p2, p3, p4⟩ := hi.mat
  have hd := hi.done
  have hnx := hi.next
  have hl := hi.last
  set w : Nat := (lastN N u.s).length + 1 - m with hw
  set h : Nat := (lastN (M.getD N) u.q).length + 1 - m with hh
  have hwN : w = min N u.s.length + 1 - m := by rw [hw, lastN_length]
  have hhN : h = min (M.getD N) u.q.length + 1 - m := by rw [hh, lastN_length]
  have hMm : m ≤ M.getD N := by
    cases M with
    | none => exact hN
    | some M' => exact hM M' rfl
  have hmc : st.maxColumn = (w : Int) := by
    unfold Streaming.maxColumn
    rw [hi.streamedS, hi.m_eq, hi.cols, hwN]
    omega
  have hmr : st.maxRow = (h : Int) := by
    unfold Streaming.maxRow
    rw [hmc, hi.selfJoin, hi.m_eq, hi.rows, hhN]
    cases M with
    | none => simp only [Option.isNone_none, if_true, Option.getD_none]; rw [hwN, hi.self rfl]
    | some M' =>
      have := hi.streamedQ (by simp)
      simp only [Option.isNone_some, Bool.false_eq_true, if_false, Option.getD_some, this]
      simp only [Option.getD_some] at hMm
      omega
  set start : Nat := u.next - (u.s.length - N) with hstart
  have hstartw : start ≤ w := by omega
  set stop : Nat := min k.toNat w with hstop
  have ha : ratioToInt ((none : Option PyNum).getD (.int (st.base.lastCol + 1))) st.base.numSeries st.maxColumn = .ok (start : Int) := by
    show Except.ok (min (max 0 (st.base.lastCol + 1)) st.maxColumn) = _
    congr 1; omega
  have hbb : ratioToInt upto st.base.numSeries st.maxColumn = .ok (stop : Int) := by
    rcases hk with rfl | ⟨x, rfl, x0, x1, rfl⟩
    · show Except.ok (min (max 0 k) st.maxColumn) = _
      congr 1; omega
    · have e1 : ((Fl.fin x).ltF (.fin 0) || Fl.ltF (.fin 1) (.fin x)) = false := by
        simp [Fl.ltF, not_lt.mpr x0, not_lt.mpr x1]
      simp only [ratioToInt, e1, Bool.false_eq_true, if_false, hi.cols]
      congr 1
      have : (((N + 1 - m : Nat) : Int) : ℚ) = ((N + 1 - m : Nat) : ℚ) := by norm_cast
      rw [this]
      omega
  have hxs : ((List.range (stop - start)).map (start + ·)).map (fun c : Nat => (c : Int)) = pyRange (start : Int) (stop : Int) := by
    unfold pyRange
    rw [List.map_map]
    rw [show ((stop : Int) - start).toNat = stop - start by omega]
    apply List.map_congr_left
    intro i _
    simp
  have hmem : ∀ c, c ∈ (List.range (stop - start)).map (start + ·) ↔ start ≤ c ∧ c < stop := by
    intro c
    rw [List.mem_map]
    constructor
    · rintro ⟨i, hi', rfl⟩; rw [List.mem_range] at hi'; omega
    · rintro ⟨h1, h2⟩; exact ⟨c - start, by rw [List.mem_range]; omega, by omega⟩
  have hnd : ((List.range (stop - start)).map (start + ·)).Nodup := List.Nodup.map (fun a b h => by simpa using h) List.nodup_range
  have hq : start < stop → m ≤ (lastN (M.getD N) u.q).length := by
    intro hlt
    rw [lastN_length]
    have := hv (by omega)
    omega
  obtain ⟨g', l', c1, c2, c3⟩ : ∃ g' l', Gives gops.calcColumn (fun _ => h) (fun c => colRow D m (lastN N u.s) (lastN (M.getD N) u.q) c.toNat)
      (pyRange (start : Int) (stop : Int)) g g' ∧ Inv g' ⟨lastN N u.s, lastN (M.getD N) u.q, l'⟩ ∧
      ∀ t e, l' = some (t, e) → t ≤ (if (start : Int) < stop then max ((stop : Int) - 1) st.base.lastCol else st.base.lastCol) := by
    by_cases hlt : start < stop
    · obtain ⟨g', l', c1, c2, c3⟩ := H.gives_columns (lastN N u.s) (lastN (M.getD N) u.q) (fun l c hc hs => hok l c hc (hq hlt) hs)
        ((List.range (stop - start)).map (start + ·)) (by intro c hc; rw [hmem] at hc; omega) g last g2
        (by
          intro c hc t e he
          right
          rw [hmem] at hc
          have := g3 t e he
          omega)
      refine ⟨g', l', by rw [← hxs]; exact c1, c2, ?_⟩
      intro t e he
      rw [if_pos (by omega)]
      rcases c3 t e he with ⟨-, c, hc, rfl⟩ | h'
      · rw [hmem] at hc; omega
      · have := g3 t e h'; omega
    · refine ⟨g, last, ?_, g2, ?_⟩
      · rw [← hxs, show stop - start = 0 by omega]; rfl
      · intro t e he
        rw [if_neg (by omega)]
        exact g3 t e he
  obtain ⟨p', f1, f2, f3, f4⟩ := DM.feed_columns gops (fun c => maskRow b (c : Int) (colRow D m (lastN N u.s) (lastN (M.getD N) u.q) c)) p.h p.w
    ((List.range (stop - start)).map (start + ·)) hnd (by
      intro c hc
      rw [hmem] at hc
      simp only [maskRow, colRow, List.length_mapIdx, List.length_map, List.length_range]
      omega) p rfl rfl
  let st' : Streaming G (DM K) := { st with base := { st.base with gens := [(g', 0)]
                                                                   cons := [(p', [0])]
                                                                   lastCol := if (start : Int) < stop then max ((stop : Int) - 1) st.base.lastCol else st.base.lastCol } }
  have hneed : st.base.Needed [0] := by
    refine ⟨by simp, fun id => ?_⟩
    rw [p1]
    simp
  have hcols : st.base.calculateColumns (DM.ops gops) st.maxColumn st.maxRow [0] (fun _ => false) none upto = .ok st'.base := by
    refine (C23_columns (DM.ops gops) st.maxColumn st.maxRow (by omega) (by omega) st.base st'.base [0] hneed (by rw [p1, g1]; simp)
      (by rw [hi.buffer]; exact hb) none upto (start : Int) (stop : Int) ha hbb).mpr
      ⟨fun _ c => colRow D m (lastN N u.s) (lastN (M.getD N) u.q) c.toNat, ?_, ?_, rfl⟩
    · simp only [g1, hmr, Int.toNat_natCast]
      exact allAsked_one _ _ _ _ _ _ _ c1
    · rw [p1]
      refine allFed_one _ _ [p] [p'] (List.Forall₂.cons ?_ List.Forall₂.nil)
      rw [← f1]
      congr 1
      rw [← hxs, List.map_map]
      apply List.map_congr_left
      intro c hc
      simp [hi.buffer]
  refine ⟨st', ?_, ?_⟩
  · unfold Streaming.calculateColumns
    simp only [hcols, bind, Except.bind, pure, Except.pure]
    rfl
  have hstep_s : (u.step m N M (.columns k)).s = u.s := rfl
  refine ⟨⟨g', l', rfl, c2, c3⟩, ⟨p', rfl, f2.trans p2, f3.trans p3, ?_⟩, hi.selfJoin, hi.m_eq, hi.nDim, hi.cols, hi.rows, hi.buffer, ?_, hi.streamedS, hi.streamedQ,
    hi.self, ?_, ?_⟩
  · intro r hr c hc
    show ((u.done _ _ ∨ _) → _) ∧ (¬ (u.done _ _ ∨ _) → _)
    obtain ⟨o1, o2⟩ := p4 r hr c hc
    have hval : cellVal D m b (u.step m N M (.columns k)) = cellVal D m b u := rfl
    rw [hval]
    have f4 := f4 r c
    simp only [hmem] at f4
    have hrel : (max u.next (u.s.length - N) ≤ c + (u.s.length - N) ∧ c + (u.s.length - N) < u.s.length - N + stop ∧
        u.q.length - M.getD N ≤ r + (u.q.length - M.getD N) ∧ r + (u.q.length - M.getD N) + m ≤ u.q.length) ↔ (start ≤ c ∧ c < stop) ∧ r < h := by
      omega
    show (u.done _ _ ∨ (max u.next (u.s.length - N) ≤ c + (u.s.length - N) ∧ c + (u.s.length - N) < u.s.length - N + stop ∧
        u.q.length - M.getD N ≤ r + (u.q.length - M.getD N) ∧ r + (u.q.length - M.getD N) + m ≤ u.q.length) → _) ∧ (¬ (u.done _ _ ∨ 
        (max u.next (u.s.length - N) ≤ c + (u.s.length - N) ∧ c + (u.s.length - N) < u.s.length - N + stop ∧
        u.q.length - M.getD N ≤ r + (u.q.length - M.getD N) ∧ r + (u.q.length - M.getD N) + m ≤ u.q.length)) → _)
    rw [hrel]
    by_cases hnew : (start ≤ c ∧ c < stop) ∧ r < h
    · refine ⟨fun _ => ?_, fun hno => absurd (Or.inr hnew) hno⟩
      rw [f4, if_pos hnew.1, maskRow, List.getElem?_mapIdx, colRow, List.getElem?_map, List.getElem?_range (by rw [← hh]; exact hnew.2)]
      simp only [Option.map_some, Option.getD_some]
      unfold cellVal
      rw [win_lastN, win_lastN]
      have hcond : ((r : Int) - c ≤ b ∧ (c : Int) - r ≤ b) ↔
          (((r + (u.q.length - M.getD N) : Nat) : Int) - ((c + (u.s.length - N) : Nat) : Int) ≤ b ∧
            ((c + (u.s.length - N) : Nat) : Int) - ((r + (u.q.length - M.getD N) : Nat) : Int) ≤ b) := by
        cases M with
        | none => rw [hi.self rfl]; simp only [Option.getD_none]; omega
        | some M' => rw [hbj (by simp)]; omega
      rw [if_congr hcond rfl rfl]
      rfl
    · have hold : p'.m r c = p.m r c := by
        rw [f4]
        split
        · rename_i h1
          have : ¬ r < h := fun h2 => hnew ⟨h1, h2⟩
          rw [maskRow, List.getElem?_mapIdx, colRow, List.getElem?_map, List.getElem?_eq_none (by simp; omega)]
          rfl
        · rfl
      rw [hold]
      constructor
      · rintro (h1 | h1)
        · exact o1 h1
        · exact absurd h1 hnew
      · intro hno
        exact o2 (fun h1 => hno (.inl h1))
  · show (if (start : Int) < stop then max ((stop : Int) - 1) st.base.lastCol else st.base.lastCol) + 1 =
      ((max u.next (u.s.length - N + stop) - (u.s.length - N) : Nat) : Int)
    split <;> omega
  · intro r c hdn
    have hdn : u.done r c ∨ (max u.next (u.s.length - N) ≤ c ∧ c < u.s.length - N + stop ∧ u.q.length - M.getD N ≤ r ∧ r + m ≤ u.q.length) := hdn
    show c + m ≤ u.s.length ∧ r + m ≤ u.q.length
    rcases hdn with hdn | ⟨a1, a2, a3, a4⟩
    · exact hd r c hdn
    · exact ⟨by omega, a4⟩
  · show max u.next (u.s.length - N + stop) ≤ u.s.length + 1 - m
    omega

end Verif
