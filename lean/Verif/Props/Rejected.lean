import Verif.Model.Rejected
import Verif.Props.SessionsStream

/-!
# C91: appends that raise
-/

namespace Verif
open Spec
variable {α β G C K : Type}

theorem appendGensX_agree (f : G → List (Fl K) → G × Option PyErr) (f' : G → List (Fl K) → Except PyErr G) (hf : ∀ g v, caught (f g v) = f' g v)
    (rows : List (List (Fl K))) (gens : List (G × Nat)) : caught (Streaming.appendGensX f rows gens) = Streaming.appendGens f' rows gens := by
  induction gens with
  | nil => rfl
  | cons g gs ih =>
    unfold Streaming.appendGens at ih ⊢
    rw [List.mapM_cons, ← ih, Streaming.appendGensX]
    cases hp : pyGet rows (g.2 : Int) with
    | error e => rfl
    | ok v =>
      have hfe := hf g.1 v
      rcases h1 : f g.1 v with ⟨g', _ | e⟩ <;> rw [h1] at hfe
      · rcases h2 : Streaming.appendGensX f rows gs with ⟨gs', _ | e⟩ <;> simp [caught, bind, Except.bind, pure, Except.pure, h1, ← hfe]
      · simp [caught, bind, Except.bind, h1, ← hfe]

theorem shiftConsX_agree (f : C → C × Option PyErr) (f' : C → Except PyErr C) (hf : ∀ c, caught (f c) = f' c)
    (cons : List (C × List Nat)) : caught (Streaming.shiftConsX f cons) = Streaming.shiftCons f' cons := by
  induction cons with
  | nil => rfl
  | cons c cs ih =>
    unfold Streaming.shiftCons at ih ⊢
    rw [List.mapM_cons, ← ih, Streaming.shiftConsX, ← hf]
    rcases h1 : f c.1 with ⟨c', _ | e⟩
    · rcases h2 : Streaming.shiftConsX f cs with ⟨cs', _ | e⟩ <;> simp [caught, bind, Except.bind, pure, Except.pure, h1]
    · simp [caught, bind, Except.bind, h1]

theorem shiftBothX_agree {s : AppendOps G C K} {ops : Ops G C K} (h : s.Agree ops) (selfJoin : Bool) (shift : Int) (cons : List (C × List Nat)) :
    caught (Streaming.shiftBothX s selfJoin shift cons) = Streaming.shiftBoth ops selfJoin shift cons := by
  unfold Streaming.shiftBothX Streaming.shiftBoth
  rw [← shiftConsX_agree (fun c => s.shiftSeries c shift) _ (fun c => h.shiftSeries c shift)]
  rcases h1 : Streaming.shiftConsX (fun c => s.shiftSeries c shift) cons with ⟨cons1, _ | e⟩
  · cases selfJoin
    · rfl
    · exact shiftConsX_agree (fun c => s.shiftQuery c shift) _ (fun c => h.shiftQuery c shift) cons1
  · rfl

/-- Where both say what a call does they say the same. -/
theorem appendSeriesX_agree {s : AppendOps G C K} {ops : Ops G C K} (h : s.Agree ops) (st : Streaming G C) (values : NDArray K) :
    caught (st.appendSeriesX s values) = st.appendSeries ops values := by
  unfold Streaming.appendSeriesX Streaming.appendSeries
  cases hr : Streaming.toRows st.base.nDim values with
  | error e => rfl
  | ok r =>
    obtain ⟨rows, n⟩ := r
    simp only [bind, Except.bind]
    rw [← appendGensX_agree s.appendSeries ops.appendSeries h.appendSeries]
    rcases h1 : Streaming.appendGensX s.appendSeries rows st.base.gens with ⟨gens, _ | e⟩
    · show caught (if Streaming.shiftOf (st.base.numSeries + st.base.m - 1) st.streamedSeries n ≠ 0 then _ else _) =
        if Streaming.shiftOf (st.base.numSeries + st.base.m - 1) st.streamedSeries n ≠ 0 then _ else _
      by_cases hk : Streaming.shiftOf (st.base.numSeries + st.base.m - 1) st.streamedSeries n ≠ 0
      · rw [if_pos hk, if_pos hk, ← shiftBothX_agree h]
        rcases h2 : Streaming.shiftBothX s st.base.selfJoin (Streaming.shiftOf (st.base.numSeries + st.base.m - 1) st.streamedSeries n) st.base.cons with ⟨cons, _ | e⟩ <;>
          rfl
      · rw [if_neg hk, if_neg hk]; rfl
    · rfl

theorem appendQueryX_agree {s : AppendOps G C K} {ops : Ops G C K} (h : s.Agree ops) (st : Streaming G C) (values : NDArray K) :
    caught (st.appendQueryX s values) = st.appendQuery ops values := by
  unfold Streaming.appendQueryX Streaming.appendQuery
  by_cases hs : st.base.selfJoin = true
  · rw [if_pos hs, if_pos hs]; rfl
  · rw [if_neg hs, if_neg hs]
    cases hr : Streaming.toRows st.base.nDim values with
    | error e => rfl
    | ok r =>
      obtain ⟨rows, n⟩ := r
      simp only [bind, Except.bind]
      rw [← appendGensX_agree s.appendQuery ops.appendQuery h.appendQuery]
      rcases h1 : Streaming.appendGensX s.appendQuery rows st.base.gens with ⟨gens, _ | e⟩
      · show caught (if Streaming.shiftOf (st.base.numQuery + st.base.m - 1) st.streamedQuery n ≠ 0 then _ else _) =
          if Streaming.shiftOf (st.base.numQuery + st.base.m - 1) st.streamedQuery n ≠ 0 then _ else _
        by_cases hk : Streaming.shiftOf (st.base.numQuery + st.base.m - 1) st.streamedQuery n ≠ 0
        · rw [if_pos hk, if_pos hk, ← shiftConsX_agree (fun c => s.shiftQuery c (Streaming.shiftOf (st.base.numQuery + st.base.m - 1) st.streamedQuery n)) _ (fun c => h.shiftQuery c _)]
          rcases h2 : Streaming.shiftConsX (fun c => s.shiftQuery c (Streaming.shiftOf (st.base.numQuery + st.base.m - 1) st.streamedQuery n)) st.base.cons with ⟨cons, _ | e⟩ <;>
            rfl
        · rw [if_neg hk, if_neg hk]; rfl
      · rfl

/-- A shape that is refused: neither one value per channel nor one row per channel. -/
def BadShape (nDim : Nat) : NDArray K → Prop
  | .d1 v => v.length ≠ nDim
  | .d2 rows _ => rows.length ≠ nDim
  | .higher => True

/-- **C91, shapes.** `append_series` and `append_query` with an array of a wrong shape, and `append_query` in a self-join, raise and change nothing, whatever the
generators and consumers and whatever the state. -/
theorem C91_shape (s : AppendOps G C K) (st : Streaming G C) (values : NDArray K) :
    (BadShape st.base.nDim values → st.appendSeriesX s values = (st, some .runtimeError) ∧ st.appendQueryX s values = (st, some .runtimeError)) ∧
    (st.base.selfJoin = true → st.appendQueryX s values = (st, some .runtimeError)) := by
  constructor
  · intro h
    have hr : Streaming.toRows st.base.nDim values = .error .runtimeError := by
      cases values with
      | d1 v => simp [Streaming.toRows, BadShape] at h ⊢; intro h'; exact absurd h' h
      | d2 rows c => simp [Streaming.toRows, BadShape] at h ⊢; intro h'; exact absurd h' h
      | higher => rfl
    unfold Streaming.appendSeriesX Streaming.appendQueryX
    rw [hr]
    refine ⟨rfl, ?_⟩
    split <;> rfl
  · intro h
    unfold Streaming.appendQueryX
    rw [if_pos h]

/-- A shape that is refused, and the state after it. -/
example : BadShape 2 (.d2 [[.fin (1 : ℚ)], [.fin 2], [.fin 3]] 1) ∧ BadShape 2 (.d1 [.fin (1 : ℚ)]) ∧ ¬ BadShape 2 (.d1 [.fin (1 : ℚ), .nan]) := by
  simp [BadShape]

/-- The generators after the loop over them was left by an exception: those before the one that raised have the data, those after it do not. -/
theorem appendGensX_error (f : G → List (Fl K) → G × Option PyErr) (rows : List (List (Fl K))) (gens gens' : List (G × Nat)) (e : PyErr)
    (h : Streaming.appendGensX f rows gens = (gens', some e)) :
    ∃ pre pre' g g' post, gens = pre ++ g :: post ∧ gens' = pre' ++ g' :: post ∧ g'.2 = g.2 ∧
      List.Forall₂ (fun x y => y.2 = x.2 ∧ ∃ v, pyGet rows (x.2 : Int) = .ok v ∧ f x.1 v = (y.1, none)) pre pre' ∧
      ((∃ v, pyGet rows (g.2 : Int) = .ok v ∧ f g.1 v = (g'.1, some e)) ∨ pyGet rows (g.2 : Int) = .error e ∧ g' = g) := by
  induction gens generalizing gens' with
  | nil => cases h
  | cons g gs ih =>
    rw [Streaming.appendGensX] at h
    cases hp : pyGet rows (g.2 : Int) with
    | error e' =>
      rw [hp] at h
      cases h
      exact ⟨[], [], g, g, gs, rfl, rfl, rfl, .nil, .inr ⟨hp, rfl⟩⟩
    | ok v =>
      rw [hp] at h
      rcases h1 : f g.1 v with ⟨g', _ | e'⟩
      · simp only [h1, Prod.mk.injEq] at h
        obtain ⟨rfl, h2⟩ := h
        obtain ⟨pre, pre', a, a', post, e1, e2, e3, e4, e5⟩ := ih (Streaming.appendGensX f rows gs).1 (by rw [← h2])
        exact ⟨g :: pre, (g', g.2) :: pre', a, a', post, by rw [e1]; rfl, by rw [e2]; rfl, e3, .cons ⟨rfl, v, hp, h1⟩ e4, e5⟩
      · simp only [h1] at h
        cases h
        exact ⟨[], [], g, (g', g.2), gs, rfl, rfl, rfl, .nil, .inl ⟨v, hp, h1⟩⟩

/-- The loop over the generators was left by an exception of one of them: those before it have been given the data, those after it have not. -/
def GensLeft (f : G → List (Fl K) → G × Option PyErr) (rows : List (List (Fl K))) (gens gens' : List (G × Nat)) (e : PyErr) : Prop :=
  ∃ pre pre' g g' post, gens = pre ++ g :: post ∧ gens' = pre' ++ g' :: post ∧ g'.2 = g.2 ∧
    List.Forall₂ (fun x y => y.2 = x.2 ∧ ∃ v, pyGet rows (x.2 : Int) = .ok v ∧ f x.1 v = (y.1, none)) pre pre' ∧
    ((∃ v, pyGet rows (g.2 : Int) = .ok v ∧ f g.1 v = (g'.1, some e)) ∨ pyGet rows (g.2 : Int) = .error e ∧ g' = g)

/-- The loop over the generators ended normally. -/
theorem appendGensX_ok (f : G → List (Fl K) → G × Option PyErr) (rows : List (List (Fl K))) (gens gens' : List (G × Nat))
    (h : Streaming.appendGensX f rows gens = (gens', none)) :
    List.Forall₂ (fun x y => y.2 = x.2 ∧ ∃ v, pyGet rows (x.2 : Int) = .ok v ∧ f x.1 v = (y.1, none)) gens gens' := by
  induction gens generalizing gens' with
  | nil => cases h; exact .nil
  | cons g gs ih =>
    rw [Streaming.appendGensX] at h
    cases hp : pyGet rows (g.2 : Int) with
    | error e' => rw [hp] at h; cases h
    | ok v =>
      rw [hp] at h
      rcases h1 : f g.1 v with ⟨g', _ | e'⟩
      · simp only [h1, Prod.mk.injEq] at h
        obtain ⟨rfl, h2⟩ := h
        exact .cons ⟨rfl, v, hp, h1⟩ (ih _ (by rw [← h2]))
      · simp only [h1] at h
        cases h

/-- **C91** (partial): an `append_series` that raises leaves the arguments of the calculator, the last calculated column and the query alone. Either the shape was
wrong and nothing was changed; or a generator raised, and the consumers and the number of points are unchanged; or a consumer raised after all generators accepted
the data, which are counted. Missing: the generators before the one that raised keep the data (`C91_not_atomic`), and the last calculated column is not moved in the
third case. -/
theorem C91_rejected_partial (s : AppendOps G C K) (st st' : Streaming G C) (values : NDArray K) (e : PyErr) (h : st.appendSeriesX s values = (st', some e)) :
    st'.base.selfJoin = st.base.selfJoin ∧ st'.base.m = st.base.m ∧ st'.base.nDim = st.base.nDim ∧ st'.base.numSeries = st.base.numSeries ∧
      st'.base.numQuery = st.base.numQuery ∧ st'.base.buffer = st.base.buffer ∧ st'.base.lastCol = st.base.lastCol ∧ st'.streamedQuery = st.streamedQuery ∧
    (st' = st ∧ BadShape st.base.nDim values ∨
      ∃ rows n, Streaming.toRows st.base.nDim values = .ok (rows, n) ∧
        (st'.base.cons = st.base.cons ∧ st'.streamedSeries = st.streamedSeries ∧ GensLeft s.appendSeries rows st.base.gens st'.base.gens e ∨
         st'.streamedSeries = st.streamedSeries + n ∧
           List.Forall₂ (fun x y => y.2 = x.2 ∧ ∃ v, pyGet rows (x.2 : Int) = .ok v ∧ s.appendSeries x.1 v = (y.1, none)) st.base.gens st'.base.gens)) := by
  unfold Streaming.appendSeriesX at h
  cases hr : Streaming.toRows st.base.nDim values with
  | error e' =>
    rw [hr] at h
    cases h
    refine ⟨rfl, rfl, rfl, rfl, rfl, rfl, rfl, rfl, .inl ⟨rfl, ?_⟩⟩
    cases values with
    | d1 v => simp only [Streaming.toRows] at hr; split at hr; · cases hr
              · assumption
    | d2 r c => simp only [Streaming.toRows] at hr; split at hr; · assumption
                · cases hr
    | higher => trivial
  | ok r =>
    obtain ⟨rows, n⟩ := r
    simp only [hr] at h
    rcases h1 : Streaming.appendGensX s.appendSeries rows st.base.gens with ⟨gens, _ | e'⟩
    · simp only [h1] at h
      split at h
      · rcases h2 : Streaming.shiftBothX s st.base.selfJoin (Streaming.shiftOf (st.base.numSeries + st.base.m - 1) st.streamedSeries n) st.base.cons with ⟨cons, _ | e'⟩
        · simp only [h2] at h; cases h
        · simp only [h2] at h; cases h
          exact ⟨rfl, rfl, rfl, rfl, rfl, rfl, rfl, rfl, .inr ⟨rows, n, rfl, .inr ⟨rfl, appendGensX_ok _ _ _ _ h1⟩⟩⟩
      · cases h
    · simp only [h1] at h
      cases h
      exact ⟨rfl, rfl, rfl, rfl, rfl, rfl, rfl, rfl, .inr ⟨rows, n, rfl, .inl ⟨rfl, rfl, appendGensX_error _ _ _ _ _ h1⟩⟩⟩

/-- **C91** (partial) for `append_query`: the arguments of the calculator, the last calculated column and the series are left alone. Either there is no query or the
shape was wrong and nothing was changed; or a generator raised, and the consumers and the number of points are unchanged; or a consumer raised after all generators
accepted the data, which are counted. -/
theorem C91_rejected_query_partial (s : AppendOps G C K) (st st' : Streaming G C) (values : NDArray K) (e : PyErr) (h : st.appendQueryX s values = (st', some e)) :
    st'.base.selfJoin = st.base.selfJoin ∧ st'.base.m = st.base.m ∧ st'.base.nDim = st.base.nDim ∧ st'.base.numSeries = st.base.numSeries ∧
      st'.base.numQuery = st.base.numQuery ∧ st'.base.buffer = st.base.buffer ∧ st'.base.lastCol = st.base.lastCol ∧ st'.streamedSeries = st.streamedSeries ∧
    (st' = st ∧ (st.base.selfJoin = true ∨ BadShape st.base.nDim values) ∨
      ∃ rows n, Streaming.toRows st.base.nDim values = .ok (rows, n) ∧
        (st'.base.cons = st.base.cons ∧ st'.streamedQuery = st.streamedQuery ∧ GensLeft s.appendQuery rows st.base.gens st'.base.gens e ∨
         st'.streamedQuery = st.streamedQuery + n ∧
           List.Forall₂ (fun x y => y.2 = x.2 ∧ ∃ v, pyGet rows (x.2 : Int) = .ok v ∧ s.appendQuery x.1 v = (y.1, none)) st.base.gens st'.base.gens)) := by
  unfold Streaming.appendQueryX at h
  by_cases hs : st.base.selfJoin = true
  · rw [if_pos hs] at h
    cases h
    exact ⟨rfl, rfl, rfl, rfl, rfl, rfl, rfl, rfl, .inl ⟨rfl, .inl hs⟩⟩
  rw [if_neg hs] at h
  cases hr : Streaming.toRows st.base.nDim values with
  | error e' =>
    rw [hr] at h
    cases h
    refine ⟨rfl, rfl, rfl, rfl, rfl, rfl, rfl, rfl, .inl ⟨rfl, .inr ?_⟩⟩
    cases values with
    | d1 v => simp only [Streaming.toRows] at hr; split at hr; · cases hr
              · assumption
    | d2 r c => simp only [Streaming.toRows] at hr; split at hr; · assumption
                · cases hr
    | higher => trivial
  | ok r =>
    obtain ⟨rows, n⟩ := r
    simp only [hr] at h
    rcases h1 : Streaming.appendGensX s.appendQuery rows st.base.gens with ⟨gens, _ | e'⟩
    · simp only [h1] at h
      split at h
      · rcases h2 : Streaming.shiftConsX (fun c => s.shiftQuery c (Streaming.shiftOf (st.base.numQuery + st.base.m - 1) st.streamedQuery n)) st.base.cons with ⟨cons, _ | e'⟩
        · simp only [h2] at h; cases h
        · simp only [h2] at h; cases h
          exact ⟨rfl, rfl, rfl, rfl, rfl, rfl, rfl, rfl, .inr ⟨rows, n, rfl, .inr ⟨rfl, appendGensX_ok _ _ _ _ h1⟩⟩⟩
      · cases h
    · simp only [h1] at h
      cases h
      exact ⟨rfl, rfl, rfl, rfl, rfl, rfl, rfl, rfl, .inr ⟨rows, n, rfl, .inl ⟨rfl, rfl, appendGensX_error _ _ _ _ _ h1⟩⟩⟩

/-- A z-normalised generator refuses data that end in NaN. -/
theorem ZN.Base.refuses {z : ZN} {m : Nat} {noise : ℝ} {N : Nat} {M : Option Nat} {s q : List ℝ} (hb : z.Base m noise N M s q) (hm : 0 < m) (v : List ℝ)
    (hl : m ≤ s.length + v.length + 1) : ∃ z' e, z.appendSeries (v.map .fin ++ [.nan]) = (z', some e) := by
  obtain ⟨rb, h1, h2, h3, -⟩ := hb.data.series.push (v.map .fin ++ [.nan])
  have hs : z.core.series.items = s.map .fin := hb.data.s_eq
  rw [hs] at h3
  have hmN := hb.data.m_le
  obtain ⟨e, he⟩ := ZN.pushStats_err_of_nonfinite z.sStats m hm (lastN N (s.map .fin ++ (v.map .fin ++ [.nan]))) (v.map Fl.fin ++ [Fl.nan]).length
    (by rw [lastN_length]; simp; omega) (by
      refine ⟨.nan, ?_, rfl⟩
      rw [← List.append_assoc, lastN_append, lastN_append]
      refine List.mem_append_right _ ?_
      rw [lastN_of_le N _ (by simp; omega), lastN_of_le _ _ (by simp; omega)]
      simp) (by simp)
  refine ⟨{ z with core := { z.core with series := rb, backlog := z.core.backlog + (v.map Fl.fin ++ [Fl.nan]).length } }, e, ?_⟩
  unfold ZN.appendSeries
  rw [if_neg (by simp)]
  have hp : z.core.pushSeries (v.map .fin ++ [.nan]) = .ok ({ z.core with series := rb, backlog := z.core.backlog + (v.map Fl.fin ++ [Fl.nan]).length },
      z.core.series.items.length + (v.map Fl.fin ++ [Fl.nan]).length - N,
      (((v.map Fl.fin ++ [Fl.nan]).length : Nat) : Int) - ((rb.vmax : Int) - rb.items.length)) := by
    unfold ColCache.pushSeries
    rw [h1]; rfl
  rw [hp]
  simp only [ColCache.s, h3, hb.data.m_eq, he]

/-- The loop over the generators: the first `j` of them accept the data and the next one raises. -/
theorem appendGensX_at (f : G → List (Fl K) → G × Option PyErr) (rows : List (List (Fl K))) : ∀ (gens : List (G × Nat)) (j : Nat) (P : Nat → G → Prop) (g : G) (ch : Nat),
    gens[j]? = some (g, ch) → (∃ v g' e, pyGet rows (ch : Int) = .ok v ∧ f g v = (g', some e)) →
    (∀ i < j, ∀ g ch, gens[i]? = some (g, ch) → ∃ v g', pyGet rows (ch : Int) = .ok v ∧ f g v = (g', none) ∧ P i g') →
    ∃ gens' e, Streaming.appendGensX f rows gens = (gens', some e) ∧ ∀ i < j, ∀ g ch, gens[i]? = some (g, ch) → ∃ g', gens'[i]? = some (g', ch) ∧ P i g' := by
  intro gens
  induction gens with
  | nil => intro j P g ch h; simp at h
  | cons x gs ih =>
    intro j P g ch hj herr hok
    cases j with
    | zero =>
      simp only [List.getElem?_cons_zero, Option.some.injEq] at hj
      subst hj
      obtain ⟨v, g', e, h1, h2⟩ := herr
      refine ⟨(g', ch) :: gs, e, ?_, by omega⟩
      rw [Streaming.appendGensX]
      simp only [h1, h2]
    | succ j =>
      obtain ⟨v, g', h1, h2, h3⟩ := hok 0 (by omega) x.1 x.2 rfl
      obtain ⟨gens', e, h4, h5⟩ := ih j (fun i => P (i + 1)) g ch (by simpa using hj) herr (fun i hi g ch hg => hok (i + 1) (by omega) g ch (by simpa using hg))
      refine ⟨(g', x.2) :: gens', e, ?_, ?_⟩
      · rw [Streaming.appendGensX]
        simp only [h1, h2, h4]
      · intro i hi g0 ch0 hg
        cases i with
        | zero =>
          simp only [List.getElem?_cons_zero, Option.some.injEq] at hg
          subst hg
          exact ⟨g', rfl, h3⟩
        | succ i => simpa using h5 i (by omega) g0 ch0 (by simpa using hg)

/-- **C91 fails.** After any session as in C90, `append_series` is called with an array in which the channel of generator `j`, a `ZNormEuclidean`, ends in NaN, and the
channels of the generators before it are finite. The call raises, the number of points and the consumers are as before, but every generator before `j` has taken
the data: all its diagonals are those of the series with the data that were refused. -/
theorem C91_not_atomic (memE : Nat → List (Fl ℝ)) (hmemE : ∀ n, (memE n).length = n) (memZ : ZN.Mem) (hmemZ : memZ.Ok)
    (ops : Ops (ColCache ℝ ⊕ ZN) C ℝ) (hops : ops.gen = GenKind.ops memE memZ) (π : Nat → α → ℝ) (m N : Nat) (M : Option Nat) (nDim : Nat) (buffer : Option Int)
    (as : List (SAct (GenKind × Nat) C (MOp α))) (bs : List (Act GenKind C (Streaming.Op ℝ))) (ha : StreamArgs m N M nDim buffer (SAct.gens as) [] [])
    (hacts : AreActs (fun u op => u.step m N M op) (IsStreamCall π m N M nDim (SAct.gens as)) (fun _ => True) 0 [] MSt.init as bs) (hcu : CaughtUp m N M [] MSt.init as)
    (halive : ∀ x ∈ streamLives π m N M buffer as, ∃ c', live ops ((M.getD N + 1 - m : Nat) : Int) ((N + 1 - m : Nat) : Int) x.1 x.2 = .ok c')
    (xs : AppendOps (ColCache ℝ ⊕ ZN) C ℝ) (hxs : xs.appendSeries = GenKind.appendSeriesX memE)
    (j ch : Nat) (noise : ℝ) (scale : ℚ) (hj : (SAct.gens as)[j]? = some (.znorm noise scale, ch)) (rows : List (List (Fl ℝ))) (n : Nat) (hrows : rows.length = nDim)
    (v : Nat → List ℝ) (hfin : ∀ i < j, ∀ k, (SAct.gens as)[i]? = some k → rows[k.2]? = some ((v i).map .fin)) (hnan : rows[ch]? = some ((v j).map .fin ++ [.nan]))
    (hlen : ∀ y, (addedAt m N M MSt.init as)[j]? = some y → m ≤ min N ((streamState m N M MSt.init as).s.length - y.1) + (v j).length + 1) :
    ∃ st0 st st' e, Streaming.init (m : Int) (N : Int) (M.map fun M : Nat => (M : Int)) nDim buffer = .ok st0 ∧
      Streaming.session ops (fun k => k.streaming memE memZ) bs st0 = .ok st ∧ st.appendSeriesX xs (.d2 rows n) = (st', some e) ∧
      st'.streamedSeries = st.streamedSeries ∧ st'.base.cons = st.base.cons ∧
      ∀ i < j, ∀ k y, (SAct.gens as)[i]? = some k → (addedAt m N M MSt.init as)[i]? = some y → ∃ g', st'.base.gens[i]? = some (g', k.2) ∧
        ∀ s q, s = lastN N (((streamState m N M MSt.init as).s.drop y.1).map (π k.2) ++ v i) →
          q = (if M.isNone then s else lastN (M.getD N) (((streamState m N M MSt.init as).q.drop y.2).map (π k.2))) →
          m ≤ s.length → m ≤ q.length → ∀ d : Int, -((q.length : Int) - m) ≤ d → d ≤ (s.length : Int) - m → ∃ g'', ops.calcDiagonal g' d =
            .ok (g'', (List.range (diagEntries m q.length s.length d)).map fun r => k.1.dist m (win m s (d.toNat + r)) (win m q ((-d).toNat + r))) := by
  obtain ⟨st0, st, i1, i2, i3, i4⟩ := stream_session_state memE hmemE memZ hmemZ ops hops π m N M nDim buffer as bs ha hacts hcu halive
  set u := streamState m N M MSt.init as with hu
  set since := addedAt m N M MSt.init as with hsince
  set kinds := SAct.gens as with hkinds
  have hpre : ∀ (i : Nat) (k : GenKind × Nat), kinds[i]? = some k → ∃ y, since[i]? = some y ∧ ∃ g last, st.base.gens[i]? = some (g, k.2) ∧
      k.1.Holds m N M g ⟨lastN N ((u.s.drop y.1).map (π k.2)), lastN (M.getD N) ((u.q.drop y.2).map (π k.2)), last⟩ := by
    intro i k hk
    have hl : i < since.length := by rw [i4.sinceLen, List.length_map]; exact (List.getElem?_eq_some_iff.mp hk).1
    obtain ⟨g, last, e1, e2, -⟩ := i4.gen i k.2 since[i] (by rw [List.getElem?_map, hk]; rfl) (List.getElem?_eq_getElem hl)
    exact ⟨since[i], List.getElem?_eq_getElem hl, g, last, e1, e2 k hk⟩
  obtain ⟨yj, hyj, gj, lj, hgj, z, rfl, hz, -⟩ := hpre j _ hj
  have hget : ∀ (c : Nat) r, rows[c]? = some r → pyGet rows (c : Int) = .ok r := fun c r h => by rw [pyGet_nat_ok]; exact h
  obtain ⟨gens', e, a1, a2⟩ := appendGensX_at xs.appendSeries rows st.base.gens j
    (fun i g' => ∀ k y, kinds[i]? = some k → since[i]? = some y → ∃ last', k.1.Holds m N M g' ⟨lastN N ((u.s.drop y.1).map (π k.2) ++ v i),
      if M.isNone then lastN N ((u.s.drop y.1).map (π k.2) ++ v i) else lastN (M.getD N) ((u.q.drop y.2).map (π k.2)), last'⟩) (.inr z) ch hgj (by
      obtain ⟨z', e, h1⟩ := hz.refuses ha.pos (v j) (by
        rw [lastN_length, List.length_map, List.length_drop]; exact hlen yj hyj)
      exact ⟨_, .inr z', e, hget ch _ hnan, by rw [hxs, GenKind.appendSeriesX]; simp only [h1]⟩) (by
      intro i hi g c hg
      have hki : i < kinds.length := lt_trans hi (List.getElem?_eq_some_iff.mp hj).1
      obtain ⟨k, hk⟩ : ∃ k, kinds[i]? = some k := ⟨_, List.getElem?_eq_getElem hki⟩
      obtain ⟨y, hy, g0, last, e1, e2⟩ := hpre i k hk
      rw [hg] at e1
      obtain ⟨rfl, rfl⟩ := Prod.mk.inj (Option.some.inj e1)
      obtain ⟨g', f1, f2⟩ := (GenKind.serves memE hmemE memZ hmemZ m N M k.1).series g _ (v i) e2 (by
        cases k.1 with
        | euclidean _ => exact ⟨trivial, trivial, by simp⟩
        | znorm _ _ => exact ⟨trivial, trivial⟩)
      refine ⟨_, g', hget k.2 _ (hfin i hi k hk), ?_, ?_⟩
      · rw [hxs]
        unfold GenKind.appendSeriesX
        cases g with
        | inl x =>
          simp only [GenKind.ops, GenOps.sum] at f1
          cases hx : (Eucl.genOps memE Real.sqrt).appendSeries x ((v i).map .fin) with
          | error e => rw [hx] at f1; cases f1
          | ok x' => rw [hx] at f1; cases f1; simp only [hx]
        | inr x =>
          simp only [GenKind.ops, GenOps.sum, ZN.genOps] at f1
          rcases hx : x.appendSeries ((v i).map .fin) with ⟨x', _ | e⟩
          · rw [hx] at f1; cases f1; simp only [hx]
          · rw [hx] at f1; cases f1
      · intro k' y' hk' hy'
        rw [hk] at hk'
        rw [hy] at hy'
        cases hk'
        cases hy'
        have hb := i4.before y (List.mem_of_getElem? hy)
        unfold GSt.step at f2
        simp only at f2
        split at f2
        · rename_i h0
          rw [List.length_eq_zero_iff] at h0
          rw [h0, List.append_nil]
          refine ⟨last, ?_⟩
          cases M with
          | none =>
            simp only [Option.isNone_none, if_true]
            rw [i4.self rfl, hb.2.2 rfl] at f2
            exact f2
          | some M' => exact f2
        · cases M with
          | none =>
            simp only [lastN_lastN_append] at f2
            exact ⟨none, f2⟩
          | some M' =>
            simp only [lastN_lastN_append] at f2
            exact ⟨_, f2⟩)
  refine ⟨st0, st, { st with base := { st.base with gens := gens' } }, e, i1, i2, ?_, rfl, rfl, ?_⟩
  · unfold Streaming.appendSeriesX
    have : Streaming.toRows st.base.nDim (.d2 rows n) = .ok (rows, n) := by
      rw [i4.nDim]; simp [Streaming.toRows, hrows]
    rw [this]
    simp only [a1]
  · intro i hi k y hk hy
    obtain ⟨y', hy', g, last, e1, -⟩ := hpre i k hk
    obtain ⟨g', e2, e3⟩ := a2 i hi g k.2 e1
    obtain ⟨last', e4⟩ := e3 k y hk hy
    refine ⟨g', e2, ?_⟩
    rintro s q rfl rfl hs hq d hd1 hd2
    obtain ⟨g'', h1, -⟩ := (GenKind.serves memE hmemE memZ hmemZ m N M k.1).diag g' _ d e4 (by
      have hv : (GSt.mk (lastN N ((u.s.drop y.1).map (π k.2) ++ v i))
          (if M.isNone then lastN N ((u.s.drop y.1).map (π k.2) ++ v i) else lastN (M.getD N) ((u.q.drop y.2).map (π k.2))) last').Valid m M (.diag d) := by
        exact ⟨by simp only; omega, by simp only; omega, hs, hq⟩
      cases k.1 with
      | euclidean _ => exact ⟨hv, trivial, by simp⟩
      | znorm _ _ => exact ⟨hv, trivial⟩)
    have : ops.calcDiagonal = (GenKind.ops memE memZ).calcDiagonal := by rw [← hops]; rfl
    rw [this]
    exact ⟨g'', h1⟩

/-- A consumer that takes note of its calls never raises. -/
theorem recorder_alive (gops : GenOps G K) (l0 l1 : Int) : ∀ (xs : List (List Nat × List (CEvent K))) (c : List (CEvent K)), ∃ c', live (recorder gops) l0 l1 c xs = .ok c' := by
  intro xs
  induction xs with
  | nil => exact fun c => ⟨c, rfl⟩
  | cons x xs ih =>
    intro c
    show ∃ c', (feed (recorder gops) [] x.2).bind _ = _
    rw [recorder_feed]
    exact ih _

/-- The session of C90 with four generators, followed by an append with a NaN in the first channel: the generator of channel 0 added second raises, and the first
diagonal of the generator of channel 1 added first is that of the last points 2, 5, 6, 8, of which 6 and 8 were refused. -/
example : ∃ st0 st st' e g' g'', Streaming.init 2 4 (some 3) 2 none = .ok st0 ∧
    Streaming.session (recorder (GenKind.ops exStreamCase.memE exStreamCase.memZ)) (fun k => k.streaming exStreamCase.memE exStreamCase.memZ) (exStreamActCalls []) st0 = .ok st ∧
    st.appendSeriesX ⟨GenKind.appendSeriesX exStreamCase.memE, GenKind.appendQueryX exStreamCase.memE, fun c _ => (c, none), fun c _ => (c, none)⟩
      (.d2 [[.fin 1, .nan], [.fin 6, .fin 8]] 2) = (st', some e) ∧ st'.streamedSeries = st.streamedSeries ∧ st'.base.gens[0]? = some (g', 1) ∧
    (GenKind.ops exStreamCase.memE exStreamCase.memZ).calcDiagonal g' 0 = .ok (g'', [.fin √26, .fin √34]) := by
  have hok := exStreamCase_ok (idss := [[0], [2]]) (by simp) (by simp) (by simp)
  obtain ⟨st0, st, st', e, h1, h2, h3, h4, -, h5⟩ := C91_not_atomic exStreamCase.memE hok.memE exStreamCase.memZ hok.memZ
    (recorder (GenKind.ops exStreamCase.memE exStreamCase.memZ)) rfl exChan 2 4 (some 3) 2 none
    (exStreamActs []) (exStreamActCalls []) (exStreamActs_args []) (exStreamActs_calls []) (exStreamActs_filled []) (fun x _ => recorder_alive _ _ _ _ _)
    ⟨GenKind.appendSeriesX exStreamCase.memE, GenKind.appendQueryX exStreamCase.memE, fun c _ => (c, none), fun c _ => (c, none)⟩ rfl 1 0 0 (3 / 2) rfl
    [[.fin 1, .nan], [.fin 6, .fin 8]] 2 rfl (fun i => if i = 0 then [6, 8] else [1])
    (by
      intro i hi k hk
      obtain rfl : i = 0 := by omega
      cases Option.some.inj hk
      rfl) rfl (by
      intro y hy
      cases Option.some.inj hy
      decide)
  obtain ⟨g', e1, e2⟩ := h5 0 (by omega) (.euclidean 2, 1) (0, 0) rfl rfl
  obtain ⟨g'', e3⟩ := e2 [2, 5, 6, 8] [1, 0, 3] (by
      simp [streamState, exStreamActs, MSt.step, MSt.init, lastN, exChan]) (by
      simp [streamState, exStreamActs, MSt.step, MSt.init, lastN, exChan]) (by decide) (by decide) 0 (by decide) (by decide)
  refine ⟨st0, st, st', e, g', g'', h1, h2, h3, h4, e1, ?_⟩
  refine e3.trans ?_
  simp [diagEntries, GenKind.dist, win, sqd, seqOf, Finset.sum_range_succ, List.range_succ]
  norm_num

section
variable {C : Type} (s : AppendOps (ColCache ℚ) C ℚ) (st : Streaming (ColCache ℚ) C)

/-- `C91_shape` for two channels and values of three. -/
example (h : st.base.nDim = 2) : st.appendSeriesX s (.d2 [[.fin 1], [.fin 2], [.fin 3]] 1) = (st, some .runtimeError) :=
  ((C91_shape s st (.d2 [[.fin 1], [.fin 2], [.fin 3]] 1)).1 (by simp [BadShape, h])).1
end

end Verif
