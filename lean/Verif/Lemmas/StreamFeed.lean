import Verif.Lemmas.NearServes
import Verif.Spec.NearFeed
import Verif.Props.Streaming
import Verif.Lemmas.StreamMatrix

/-!
A streaming calculator with any generators and consumers: what the calls deliver.
-/

namespace Verif
open Spec
variable {α E G C K : Type}

/-- The generator methods among the methods a calculator uses. -/
def Ops.gen (ops : Ops G C K) : GenOps G K := ⟨ops.calcDiagonal, ops.calcColumn, ops.appendSeries, ops.appendQuery⟩

theorem exists_list {A B : Type} (P : Nat → A → B → Prop) (l : List A) (h : ∀ i a, l[i]? = some a → ∃ b, P i a b) :
    ∃ l' : List B, l'.length = l.length ∧ ∀ i a b, l[i]? = some a → l'[i]? = some b → P i a b := by
  induction l generalizing P with
  | nil => exact ⟨[], rfl, by simp⟩
  | cons a l ih =>
    obtain ⟨b, hb⟩ := h 0 a rfl
    obtain ⟨l', h1, h2⟩ := ih (fun i => P (i + 1)) (fun i a' ha => h (i + 1) a' (by simpa using ha))
    refine ⟨b :: l', by simp [h1], ?_⟩
    intro i x y hx hy
    cases i with
    | zero => simp at hx hy; subst hx; subst hy; exact hb
    | succ i => exact h2 i x y (by simpa using hx) (by simpa using hy)

theorem win_map {A B : Type} (f : A → B) (m : Nat) (l : List A) (c : Nat) : win m (l.map f) c = (win m l c).map f := by
  unfold win; rw [List.map_take, List.map_drop]

/-- The distances of the generators as functions of frames. -/
def frameDist (π : Nat → α → E) (chan : List Nat) (D : Nat → List E → List E → Fl K) (id : Nat) (a b : List α) : Fl K :=
  D id (a.map (π (chan.getD id 0))) (b.map (π (chan.getD id 0)))

/-- The state of the calculator and its generators fits the calls made so far. -/
structure FeedInv (Inv : Nat → G → GSt E → Prop) (π : Nat → α → E) (chan : List Nat) (nDim m N : Nat) (M : Option Nat) (b : Int)
    (st : Streaming G C) (u : MSt α) : Prop where
  genLen : st.base.gens.length = chan.length
  gen : ∀ (i ch : Nat), chan[i]? = some ch → ∃ g last, st.base.gens[i]? = some (g, ch) ∧
    Inv i g ⟨lastN N (u.s.map (π ch)), lastN (M.getD N) (u.q.map (π ch)), last⟩ ∧ ∀ t e, last = some (t, e) → t ≤ st.base.lastCol
  chanLt : ∀ ch ∈ chan, ch < nDim
  selfJoin : st.base.selfJoin = M.isNone
  m_eq : st.base.m = m
  nDim : st.base.nDim = nDim
  cols : st.base.numSeries = ((N + 1 - m : Nat) : Int)
  rows : st.base.numQuery = ((M.getD N + 1 - m : Nat) : Int)
  buffer : st.base.buffer = b
  last : st.base.lastCol + 1 = ((u.next - (u.s.length - N) : Nat) : Int)
  streamedS : st.streamedSeries = u.s.length
  streamedQ : M ≠ none → st.streamedQuery = u.q.length
  self : M = none → u.q = u.s
  next : u.next ≤ u.s.length + 1 - m

/-- The same for generators that were added at any time: `since` says for each of them how much had been appended then. -/
structure LateInv (Inv : Nat → G → GSt E → Prop) (π : Nat → α → E) (chan : List Nat) (since : List (Nat × Nat)) (nDim m N : Nat) (M : Option Nat) (b : Int)
    (st : Streaming G C) (u : MSt α) : Prop where
  genLen : st.base.gens.length = chan.length
  sinceLen : since.length = chan.length
  gen : ∀ (i ch : Nat) (x : Nat × Nat), chan[i]? = some ch → since[i]? = some x → ∃ g last, st.base.gens[i]? = some (g, ch) ∧
    Inv i g ⟨lastN N ((u.s.drop x.1).map (π ch)), lastN (M.getD N) ((u.q.drop x.2).map (π ch)), last⟩ ∧
    ∀ t e, last = some (t, e) → t ≤ st.base.lastCol ∧ Filled N (M.getD N) x u
  before : ∀ x ∈ since, x.1 ≤ u.s.length ∧ x.2 ≤ u.q.length ∧ (M = none → x.2 = x.1)
  chanLt : ∀ ch ∈ chan, ch < nDim
  selfJoin : st.base.selfJoin = M.isNone
  m_eq : st.base.m = m
  nDim : st.base.nDim = nDim
  cols : st.base.numSeries = ((N + 1 - m : Nat) : Int)
  rows : st.base.numQuery = ((M.getD N + 1 - m : Nat) : Int)
  buffer : st.base.buffer = b
  last : st.base.lastCol + 1 = ((u.next - (u.s.length - N) : Nat) : Int)
  streamedS : st.streamedSeries = u.s.length
  streamedQ : M ≠ none → st.streamedQuery = u.q.length
  self : M = none → u.q = u.s
  next : u.next ≤ u.s.length + 1 - m

theorem lastN_drop_filled {A : Type} (n a : Nat) (l : List A) (h : a = 0 ∨ a + n ≤ l.length) : lastN n (l.drop a) = lastN n l := by
  rcases h with rfl | h
  · rfl
  · conv_rhs => rw [← List.take_append_drop a l]
    rw [lastN_append_right]
    rw [List.length_drop]; omega

/-- Once their windows are filled it does not matter when the generators were added. -/
theorem LateInv.feed {Inv : Nat → G → GSt E → Prop} {π : Nat → α → E} {chan : List Nat} {since : List (Nat × Nat)} {nDim m N : Nat} {M : Option Nat} {b : Int}
    {st : Streaming G C} {u : MSt α} (hi : LateInv Inv π chan since nDim m N M b st u) (hf : ∀ x ∈ since, Filled N (M.getD N) x u) :
    FeedInv Inv π chan nDim m N M b st u := by
  refine ⟨hi.genLen, ?_, hi.chanLt, hi.selfJoin, hi.m_eq, hi.nDim, hi.cols, hi.rows, hi.buffer, hi.last, hi.streamedS, hi.streamedQ, hi.self, hi.next⟩
  intro i ch hch
  have hl : i < since.length := by rw [hi.sinceLen]; exact (List.getElem?_eq_some_iff.mp hch).1
  obtain ⟨h1, h2⟩ := hf since[i] (List.getElem_mem hl)
  obtain ⟨g, last, e1, e2, e3⟩ := hi.gen i ch since[i] hch (List.getElem?_eq_getElem hl)
  refine ⟨g, last, e1, ?_, fun t e h => (e3 t e h).1⟩
  rw [lastN_map, lastN_map, lastN_drop_filled _ _ _ h1, lastN_drop_filled _ _ _ h2, ← lastN_map, ← lastN_map] at e2
  exact e2

theorem FeedInv.late {Inv : Nat → G → GSt E → Prop} {π : Nat → α → E} {chan : List Nat} {since : List (Nat × Nat)} {nDim m N : Nat} {M : Option Nat} {b : Int}
    {st : Streaming G C} {u : MSt α} (hi : FeedInv Inv π chan nDim m N M b st u) (hf : ∀ x ∈ since, Filled N (M.getD N) x u) (hlen : since.length = chan.length)
    (hb : ∀ x ∈ since, x.1 ≤ u.s.length ∧ x.2 ≤ u.q.length ∧ (M = none → x.2 = x.1)) :
    LateInv Inv π chan since nDim m N M b st u := by
  refine ⟨hi.genLen, hlen, ?_, hb, hi.chanLt, hi.selfJoin, hi.m_eq, hi.nDim, hi.cols, hi.rows, hi.buffer, hi.last, hi.streamedS, hi.streamedQ, hi.self, hi.next⟩
  intro i ch x hch hx
  obtain ⟨h1, h2⟩ := hf x (List.mem_of_getElem? hx)
  obtain ⟨g, last, e1, e2, e3⟩ := hi.gen i ch hch
  refine ⟨g, last, e1, ?_, fun t e h => ⟨e3 t e h, h1, h2⟩⟩
  rw [lastN_map, lastN_map, lastN_drop_filled _ _ _ h1, lastN_drop_filled _ _ _ h2, ← lastN_map, ← lastN_map]
  exact e2

/-- The array argument holds the frames `v`: one row per channel, or a 1-D array for a single frame. -/
def IsArrayOf (nDim : Nat) (ρ : Nat → α → Fl K) (v : List α) (a : NDArray K) : Prop :=
  a = .d2 ((List.range nDim).map fun ch => v.map fun x => ρ ch x) v.length ∨
    ∃ x, v = [x] ∧ a = .d1 ((List.range nDim).map fun ch => ρ ch x)

/-- The same for finite data. -/
abbrev IsArray (nDim : Nat) (π : Nat → α → K) (v : List α) (a : NDArray K) : Prop := IsArrayOf nDim (fun ch x => .fin (π ch x)) v a

theorem toRows_array (nDim : Nat) (ρ : Nat → α → Fl K) (v : List α) (a : NDArray K) (h : IsArrayOf nDim ρ v a) :
    Streaming.toRows nDim a = .ok ((List.range nDim).map fun ch => v.map fun x => ρ ch x, v.length) := by
  rcases h with rfl | ⟨x, rfl, rfl⟩ <;> simp [Streaming.toRows]

theorem appendGens_ok (f : G → List (Fl K) → Except PyErr G) (nDim : Nat) (row : Nat → List (Fl K)) (gens : List (G × Nat))
    (P : Nat → G → G → Prop) (h : ∀ (i : Nat) (g : G) (ch : Nat), gens[i]? = some (g, ch) → ch < nDim ∧ ∃ g', f g (row ch) = .ok g' ∧ P i g g') :
    ∃ gens', Streaming.appendGens f ((List.range nDim).map row) gens = .ok gens' ∧ gens'.length = gens.length ∧
      ∀ (i : Nat) (g : G) (ch : Nat), gens[i]? = some (g, ch) → ∃ g', gens'[i]? = some (g', ch) ∧ P i g g' := by
  obtain ⟨l', h1, h2⟩ := exists_list (fun i (x : G × Nat) (y : G × Nat) => y.2 = x.2 ∧ f x.1 (row x.2) = .ok y.1 ∧ P i x.1 y.1) gens
    (by
      intro i a ha
      obtain ⟨_, g', e1, e2⟩ := h i a.1 a.2 ha
      exact ⟨(g', a.2), rfl, e1, e2⟩)
  refine ⟨l', ?_, h1, ?_⟩
  · unfold Streaming.appendGens
    rw [mapM_ok_iff, forall₂_iff_getElem?]
    refine ⟨h1, fun i x y hx hy => ?_⟩
    obtain ⟨e1, e2, _⟩ := h2 i x y hx hy
    have hlt := (h i x.1 x.2 hx).1
    have hget : pyGet ((List.range nDim).map row) (x.2 : Int) = .ok (row x.2) := by
      rw [pyGet_nat_ok, List.getElem?_map, List.getElem?_range hlt]; rfl
    rw [hget]
    simp only [bind, Except.bind, e2, pure, Except.pure]
    rw [← e1]
  · intro i g ch hi
    have hl : i < l'.length := by rw [h1]; exact (List.getElem?_eq_some_iff.mp hi).1
    obtain ⟨e1, _, e3⟩ := h2 i _ l'[i] hi (List.getElem?_eq_getElem hl)
    refine ⟨l'[i].1, ?_, e3⟩
    rw [List.getElem?_eq_getElem hl]
    congr 1
    exact Prod.ext rfl e1

theorem shiftOf_moved (N a n : Nat) : Streaming.shiftOf (N : Int) (a : Int) n = (moved N a n : Int) := shiftOf_eq N a n

section
variable {enc : E → Fl K} {ops : Ops G C K} {m N : Nat} {M : Option Nat} {D : Nat → List E → List E → Fl K} {Rel : Nat → Fl K → Fl K → Prop} {Ok : Nat → GSt E → GOp E → Prop}
    {Inv : Nat → G → GSt E → Prop} {π : Nat → α → E} {chan : List Nat} {nDim : Nat}

theorem FeedInv.chan_of_gen {b : Int} {st : Streaming G C} {u : MSt α} (hi : FeedInv Inv π chan nDim m N M b st u) (i : Nat) (g : G) (ch : Nat)
    (h : st.base.gens[i]? = some (g, ch)) : chan[i]? = some ch := by
  have hl : i < chan.length := by rw [← hi.genLen]; exact (List.getElem?_eq_some_iff.mp h).1
  obtain ⟨g', last, e1, _⟩ := hi.gen i chan[i] (List.getElem?_eq_getElem hl)
  rw [h] at e1
  obtain ⟨-, e⟩ := Prod.mk.inj (Option.some.inj e1)
  rw [e, List.getElem?_eq_getElem hl]

theorem LateInv.chan_of_gen {since : List (Nat × Nat)} {b : Int} {st : Streaming G C} {u : MSt α} (hi : LateInv Inv π chan since nDim m N M b st u) (i : Nat) (g : G)
    (ch : Nat) (h : st.base.gens[i]? = some (g, ch)) : chan[i]? = some ch ∧ ∃ x, since[i]? = some x := by
  have hl : i < chan.length := by rw [← hi.genLen]; exact (List.getElem?_eq_some_iff.mp h).1
  have hl' : i < since.length := by rw [hi.sinceLen]; exact hl
  obtain ⟨g', last, e1, _⟩ := hi.gen i chan[i] since[i] (List.getElem?_eq_getElem hl) (List.getElem?_eq_getElem hl')
  rw [h] at e1
  obtain ⟨-, e⟩ := Prod.mk.inj (Option.some.inj e1)
  exact ⟨by rw [e, List.getElem?_eq_getElem hl], _, List.getElem?_eq_getElem hl'⟩

theorem late_series {since : List (Nat × Nat)} (H : ∀ i < chan.length, NearServes enc ops.gen m N M (D i) (Rel i) (Ok i) (Inv i)) (hm0 : 0 < m) (hN : m ≤ N) (b : Int) (st : Streaming G C) (u : MSt α)
    (hi : LateInv Inv π chan since nDim m N M b st u) (v : List α) (a : NDArray K) (ha : IsArrayOf nDim (fun ch x => enc (π ch x)) v a)
    (hok : ∀ (i ch : Nat), chan[i]? = some ch → ∀ w, Ok i w (.series (v.map (π ch)))) (cons' : List (C × List Nat))
    (hf : AllFed ops (fun ids => u.events m N M b (frameDist π chan D) ids (.series v)) st.base.cons cons') :
    ∃ st', st.appendSeries ops a = .ok st' ∧ st'.base.cons = cons' ∧ LateInv Inv π chan since nDim m N M b st' (u.step m N M (.series v)) := by
  have hs := hi.selfJoin
  have hwin : st.base.numSeries + st.base.m - 1 = (N : Int) := by rw [hi.cols, hi.m_eq]; omega
  set k : Nat := moved N u.s.length v.length with hk
  have hk' : k = u.s.length + v.length - N - (u.s.length - N) := rfl
  have hfill : ∀ x : Nat × Nat, Filled N (M.getD N) x u → Filled N (M.getD N) x (u.step m N M (.series v)) := by
    intro x ⟨h1, h2⟩
    refine ⟨h1.imp id fun h => ?_, h2.imp id fun h => ?_⟩
    · simp only [MSt.step, List.length_append]; omega
    · simp only [MSt.step]; split <;> (try simp only [List.length_append]) <;> omega
  have hstep : ∀ (ch : Nat) (x : Nat × Nat) (last : Option (Int × Bool)), x ∈ since →
      (∀ t e, last = some (t, e) → t ≤ st.base.lastCol ∧ Filled N (M.getD N) x u) → ∃ last',
      (GSt.mk (lastN N ((u.s.drop x.1).map (π ch))) (lastN (M.getD N) ((u.q.drop x.2).map (π ch))) last).step N M (.series (v.map (π ch))) =
      ⟨lastN N (((u.s ++ v).drop x.1).map (π ch)), lastN (M.getD N) (((if M.isNone then u.q ++ v else u.q).drop x.2).map (π ch)), last'⟩ ∧
      ∀ t e, last' = some (t, e) → t ≤ (if k ≠ 0 then max (-1) (st.base.lastCol - k) else st.base.lastCol) ∧
        Filled N (M.getD N) x (u.step m N M (.series v)) := by
    intro ch x last hx g3
    obtain ⟨b1, b2, b3⟩ := hi.before x hx
    unfold GSt.step
    simp only
    split
    · rename_i h0
      rw [List.length_map, List.length_eq_zero_iff] at h0
      subst h0
      refine ⟨last, by simp, ?_⟩
      have : k = 0 := by rw [hk']; simp
      intro t e h
      exact ⟨by simpa [this] using (g3 t e h).1, hfill x (g3 t e h).2⟩
    · have hd : (u.s ++ v).drop x.1 = u.s.drop x.1 ++ v := List.drop_append_of_le_length b1
      rw [hd]
      cases M with
      | none =>
        refine ⟨none, ?_, by simp⟩
        have hd2 : (u.q ++ v).drop x.2 = u.s.drop x.1 ++ v := by rw [hi.self rfl, b3 rfl, hd]
        simp only [Option.isNone_none, if_true, Option.getD_none, hd2]
        simp [lastN_lastN_append]
      | some M' =>
        refine ⟨_, by simp [lastN_lastN_append]; rfl, ?_⟩
        intro t e h
        cases hl : last with
        | none => rw [hl] at h; cases h
        | some y =>
          rw [hl] at h
          simp only [Option.map_some, Option.some.injEq, Prod.mk.injEq, List.length_map, List.length_drop, lastN_length] at h
          obtain ⟨h3, h4⟩ := g3 y.1 y.2 (by rw [hl])
          refine ⟨?_, hfill x h4⟩
          rcases h4.1 with h5 | h5 <;> split <;> omega
  obtain ⟨gens', a1, a2, a3⟩ := appendGens_ok ops.appendSeries nDim (fun ch => v.map fun x => enc (π ch x)) st.base.gens
    (fun i g g' => ∀ ch x, chan[i]? = some ch → since[i]? = some x → ∃ last', Inv i g' ⟨lastN N (((u.s ++ v).drop x.1).map (π ch)),
        lastN (M.getD N) (((if M.isNone then u.q ++ v else u.q).drop x.2).map (π ch)), last'⟩ ∧
      ∀ t e, last' = some (t, e) → t ≤ (if k ≠ 0 then max (-1) (st.base.lastCol - k) else st.base.lastCol) ∧
        Filled N (M.getD N) x (u.step m N M (.series v))) (by
    intro i g ch hg
    obtain ⟨hch, x, hx⟩ := hi.chan_of_gen i g ch hg
    have hlt : i < chan.length := (List.getElem?_eq_some_iff.mp hch).1
    refine ⟨hi.chanLt ch (List.mem_of_getElem? hch), ?_⟩
    obtain ⟨g0, last, e1, e2, e3⟩ := hi.gen i ch x hch hx
    rw [hg] at e1
    obtain ⟨rfl, -⟩ := Prod.mk.inj (Option.some.inj e1)
    obtain ⟨g', f1, f2⟩ := (H i hlt).series g _ (v.map (π ch)) e2 (hok i ch hch _)
    obtain ⟨last', s1, s2⟩ := hstep ch x last (List.mem_of_getElem? hx) e3
    rw [s1] at f2
    refine ⟨g', ?_, ?_⟩
    · rw [List.map_map] at f1; exact f1
    · intro ch' x' hch' hx'
      rw [hch] at hch'
      rw [hx] at hx'
      obtain rfl := Option.some.inj hch'
      obtain rfl := Option.some.inj hx'
      exact ⟨last', f2, s2⟩)
  have hsh : Streaming.shiftOf (st.base.numSeries + st.base.m - 1) st.streamedSeries v.length = (k : Int) := by
    rw [hwin, hi.streamedS, shiftOf_moved]
  have hrows : Streaming.toRows st.base.nDim a = .ok ((List.range nDim).map fun ch => v.map fun x => enc (π ch x), v.length) := by
    rw [hi.nDim]; exact toRows_array nDim _ v a ha
  have hcons : (if (k : Int) ≠ 0 then Streaming.shiftBoth ops st.base.selfJoin (k : Int) st.base.cons else pure st.base.cons) = .ok cons' := by
    simp only [MSt.events] at hf
    rw [← hk] at hf
    rcases Nat.eq_zero_or_pos k with h0 | h0
    · simp only [h0, if_true] at hf
      rw [hf.nil_eq]; simp [h0, pure, Except.pure]
    · rw [if_pos (by omega)]
      simp only [show k ≠ 0 by omega, if_false] at hf
      unfold Streaming.shiftBoth
      rw [hs]
      cases M with
      | none =>
        simp only [Option.isNone_none, if_true] at hf ⊢
        have hf' : AllFed ops (fun _ => [CEvent.shiftSeries (k : Int)] ++ [CEvent.shiftQuery (k : Int)]) st.base.cons cons' := hf
        obtain ⟨c1, f1, f2⟩ := hf'.split
        rw [bind_ok_iff]
        exact ⟨c1, (shiftCons_iff ops _ (.shiftSeries k) (fun _ => rfl) _ _).mpr f1, (shiftCons_iff ops _ (.shiftQuery k) (fun _ => rfl) _ _).mpr f2⟩
      | some M' =>
        simp only [Option.isNone_some, Bool.false_eq_true, if_false] at hf ⊢
        rw [bind_ok_iff]
        exact ⟨cons', (shiftCons_iff ops _ (.shiftSeries k) (fun _ => rfl) _ _).mpr hf, rfl⟩
  have hnx := hi.next
  have hl := hi.last
  refine ⟨{ st with base := { st.base with gens := gens', cons := cons', lastCol := if k ≠ 0 then max (-1) (st.base.lastCol - k) else st.base.lastCol }
                    streamedSeries := st.streamedSeries + v.length }, ?_, rfl, ?_⟩
  · unfold Streaming.appendSeries
    simp only [hrows, a1, hsh, bind, Except.bind]
    split
    · rename_i h0
      rw [if_pos h0] at hcons
      rw [hcons]
      have : k ≠ 0 := by omega
      simp [this, pure, Except.pure]
    · rename_i h0
      rw [if_neg h0] at hcons
      simp only [pure, Except.pure, Except.ok.injEq] at hcons
      have h0 : k = 0 := by omega
      simp [h0, ← hcons, pure, Except.pure]
  · refine ⟨a2.trans hi.genLen, hi.sinceLen, ?_, ?_, hi.chanLt, hs, hi.m_eq, hi.nDim, hi.cols, hi.rows, hi.buffer, ?_, ?_, ?_, ?_, ?_⟩
    · intro i ch x hch hx
      obtain ⟨g, last, e1, _, _⟩ := hi.gen i ch x hch hx
      obtain ⟨g', e2, e3⟩ := a3 i g ch e1
      obtain ⟨last', e4, e5⟩ := e3 ch x hch hx
      exact ⟨g', last', e2, e4, e5⟩
    · intro x hx
      obtain ⟨b1, b2, b3⟩ := hi.before x hx
      refine ⟨?_, ?_, b3⟩
      · simp only [MSt.step, List.length_append]; omega
      · simp only [MSt.step]; split <;> (try simp only [List.length_append]) <;> omega
    · simp only [MSt.step, List.length_append]
      split <;> omega
    · simp only [MSt.step, List.length_append, hi.streamedS]; omega
    · intro h
      rw [← Option.isSome_iff_ne_none] at h
      have hn : M.isNone = false := by cases M <;> simp at h ⊢
      simp only [MSt.step, hn, Bool.false_eq_true, if_false]
      exact hi.streamedQ (by rintro rfl; simp at h)
    · intro h
      subst h
      simp [MSt.step, hi.self rfl]
    · simp only [MSt.step, List.length_append]; omega

theorem feed_series (H : ∀ i < chan.length, NearServes enc ops.gen m N M (D i) (Rel i) (Ok i) (Inv i)) (hm0 : 0 < m) (hN : m ≤ N) (b : Int) (st : Streaming G C) (u : MSt α)
    (hi : FeedInv Inv π chan nDim m N M b st u) (v : List α) (a : NDArray K) (ha : IsArrayOf nDim (fun ch x => enc (π ch x)) v a)
    (hok : ∀ (i ch : Nat), chan[i]? = some ch → ∀ w, Ok i w (.series (v.map (π ch)))) (cons' : List (C × List Nat))
    (hf : AllFed ops (fun ids => u.events m N M b (frameDist π chan D) ids (.series v)) st.base.cons cons') :
    ∃ st', st.appendSeries ops a = .ok st' ∧ st'.base.cons = cons' ∧ FeedInv Inv π chan nDim m N M b st' (u.step m N M (.series v)) := by
  have hz : ∀ (w : MSt α), ∀ x ∈ List.replicate chan.length ((0, 0) : Nat × Nat), Filled N (M.getD N) x w := by
    intro w x hx
    rw [List.eq_of_mem_replicate hx]
    exact ⟨.inl rfl, .inl rfl⟩
  obtain ⟨st', h1, h2, h3⟩ := late_series H hm0 hN b st u (hi.late (hz u) (by simp) (by intro x hx; rw [List.eq_of_mem_replicate hx]; simp)) v a ha hok cons' hf
  exact ⟨st', h1, h2, h3.feed (hz _)⟩

theorem late_query {since : List (Nat × Nat)} {M : Nat} (H : ∀ i < chan.length, NearServes enc ops.gen m N (some M) (D i) (Rel i) (Ok i) (Inv i)) (hm0 : 0 < m) (hM : m ≤ M) (b : Int) (st : Streaming G C) (u : MSt α)
    (hi : LateInv Inv π chan since nDim m N (some M) b st u) (v : List α) (a : NDArray K) (ha : IsArrayOf nDim (fun ch x => enc (π ch x)) v a)
    (hok : ∀ (i ch : Nat), chan[i]? = some ch → ∀ w, Ok i w (.query (v.map (π ch)))) (cons' : List (C × List Nat))
    (hf : AllFed ops (fun ids => u.events m N (some M) b (frameDist π chan D) ids (.query v)) st.base.cons cons') :
    ∃ st', st.appendQuery ops a = .ok st' ∧ st'.base.cons = cons' ∧ LateInv Inv π chan since nDim m N (some M) b st' (u.step m N (some M) (.query v)) := by
  have hs := hi.selfJoin
  have hsq := hi.streamedQ (by simp)
  have hwin : st.base.numQuery + st.base.m - 1 = (M : Int) := by rw [hi.rows, hi.m_eq]; simp; omega
  set k : Nat := moved M u.q.length v.length with hk
  have hstep : ∀ (ch : Nat) (x : Nat × Nat) (last : Option (Int × Bool)), x ∈ since →
      (∀ t e, last = some (t, e) → t ≤ st.base.lastCol ∧ Filled N M x u) → ∃ last',
      (GSt.mk (lastN N ((u.s.drop x.1).map (π ch))) (lastN M ((u.q.drop x.2).map (π ch))) last).step N (some M) (.query (v.map (π ch))) =
      ⟨lastN N ((u.s.drop x.1).map (π ch)), lastN M (((u.q ++ v).drop x.2).map (π ch)), last'⟩ ∧
      ∀ t e, last' = some (t, e) → t ≤ st.base.lastCol ∧ Filled N M x (u.step m N (some M) (.query v)) := by
    intro ch x last hx g3
    obtain ⟨b1, b2, b3⟩ := hi.before x hx
    unfold GSt.step
    simp only
    split
    · rename_i h0
      rw [List.length_map, List.length_eq_zero_iff] at h0
      subst h0
      refine ⟨last, by simp, fun t e h => ⟨(g3 t e h).1, ?_⟩⟩
      simpa [MSt.step, Filled] using (g3 t e h).2
    · have hd : (u.q ++ v).drop x.2 = u.q.drop x.2 ++ v := List.drop_append_of_le_length b2
      rw [hd]
      exact ⟨none, by simp [lastN_lastN_append], by simp⟩
  obtain ⟨gens', a1, a2, a3⟩ := appendGens_ok ops.appendQuery nDim (fun ch => v.map fun x => enc (π ch x)) st.base.gens
    (fun i g g' => ∀ ch x, chan[i]? = some ch → since[i]? = some x → ∃ last', Inv i g' ⟨lastN N ((u.s.drop x.1).map (π ch)),
        lastN M (((u.q ++ v).drop x.2).map (π ch)), last'⟩ ∧
      ∀ t e, last' = some (t, e) → t ≤ st.base.lastCol ∧ Filled N M x (u.step m N (some M) (.query v))) (by
    intro i g ch hg
    obtain ⟨hch, x, hx⟩ := hi.chan_of_gen i g ch hg
    have hlt : i < chan.length := (List.getElem?_eq_some_iff.mp hch).1
    refine ⟨hi.chanLt ch (List.mem_of_getElem? hch), ?_⟩
    obtain ⟨g0, last, e1, e2, e3⟩ := hi.gen i ch x hch hx
    rw [hg] at e1
    obtain ⟨rfl, -⟩ := Prod.mk.inj (Option.some.inj e1)
    obtain ⟨g', f1, f2⟩ := (H i hlt).query g _ (v.map (π ch)) e2 (hok i ch hch _)
    obtain ⟨last', s1, s2⟩ := hstep ch x last (List.mem_of_getElem? hx) e3
    simp only [Option.getD_some] at f2
    rw [s1] at f2
    refine ⟨g', ?_, ?_⟩
    · rw [List.map_map] at f1; exact f1
    · intro ch' x' hch' hx'
      rw [hch] at hch'
      rw [hx] at hx'
      obtain rfl := Option.some.inj hch'
      obtain rfl := Option.some.inj hx'
      exact ⟨last', f2, s2⟩)
  have hsh : Streaming.shiftOf (st.base.numQuery + st.base.m - 1) st.streamedQuery v.length = (k : Int) := by
    rw [hwin, hsq, shiftOf_moved]
  have hrows : Streaming.toRows st.base.nDim a = .ok ((List.range nDim).map fun ch => v.map fun x => enc (π ch x), v.length) := by
    rw [hi.nDim]; exact toRows_array nDim _ v a ha
  have hcons : (if (k : Int) ≠ 0 then Streaming.shiftCons (fun c => ops.shiftQuery c (k : Int)) st.base.cons else pure st.base.cons) = .ok cons' := by
    simp only [MSt.events, Option.getD_some] at hf
    rw [← hk] at hf
    rcases Nat.eq_zero_or_pos k with h0 | h0
    · simp only [h0, if_true] at hf
      rw [hf.nil_eq]; simp [h0, pure, Except.pure]
    · rw [if_pos (by omega)]
      simp only [show k ≠ 0 by omega, if_false] at hf
      exact (shiftCons_iff ops _ (.shiftQuery k) (fun _ => rfl) _ _).mpr hf
  refine ⟨{ st with base := { st.base with gens := gens', cons := cons' }, streamedQuery := st.streamedQuery + v.length }, ?_, rfl, ?_⟩
  · unfold Streaming.appendQuery
    rw [hs]
    simp only [Option.isNone_some, Bool.false_eq_true, if_false, hrows, a1, hsh, bind, Except.bind]
    split
    · rename_i h0
      rw [if_pos h0] at hcons
      rw [hcons]
      simp [pure, Except.pure, hs]
    · rename_i h0
      rw [if_neg h0] at hcons
      simp only [pure, Except.pure, Except.ok.injEq] at hcons
      simp [← hcons, pure, Except.pure, hs]
  · refine ⟨a2.trans hi.genLen, hi.sinceLen, ?_, ?_, hi.chanLt, hs, hi.m_eq, hi.nDim, hi.cols, hi.rows, hi.buffer, hi.last, hi.streamedS, ?_, by simp, hi.next⟩
    · intro i ch x hch hx
      obtain ⟨g, last, e1, _, _⟩ := hi.gen i ch x hch hx
      obtain ⟨g', e2, e3⟩ := a3 i g ch e1
      obtain ⟨last', e4, e5⟩ := e3 ch x hch hx
      exact ⟨g', last', e2, e4, e5⟩
    · intro x hx
      obtain ⟨b1, b2, b3⟩ := hi.before x hx
      refine ⟨?_, ?_, b3⟩
      · simp only [MSt.step]; exact b1
      · simp only [MSt.step, List.length_append]; omega
    · intro _
      simp only [MSt.step, List.length_append, hsq]; omega

theorem feed_query {M : Nat} (H : ∀ i < chan.length, NearServes enc ops.gen m N (some M) (D i) (Rel i) (Ok i) (Inv i)) (hm0 : 0 < m) (hM : m ≤ M) (b : Int) (st : Streaming G C) (u : MSt α)
    (hi : FeedInv Inv π chan nDim m N (some M) b st u) (v : List α) (a : NDArray K) (ha : IsArrayOf nDim (fun ch x => enc (π ch x)) v a)
    (hok : ∀ (i ch : Nat), chan[i]? = some ch → ∀ w, Ok i w (.query (v.map (π ch)))) (cons' : List (C × List Nat))
    (hf : AllFed ops (fun ids => u.events m N (some M) b (frameDist π chan D) ids (.query v)) st.base.cons cons') :
    ∃ st', st.appendQuery ops a = .ok st' ∧ st'.base.cons = cons' ∧ FeedInv Inv π chan nDim m N (some M) b st' (u.step m N (some M) (.query v)) := by
  have hz : ∀ (w : MSt α), ∀ x ∈ List.replicate chan.length ((0, 0) : Nat × Nat), Filled N (M) x w := by
    intro w x hx
    rw [List.eq_of_mem_replicate hx]
    exact ⟨.inl rfl, .inl rfl⟩
  obtain ⟨st', h1, h2, h3⟩ := late_query H hm0 hM b st u (hi.late (hz u) (by simp) (by intro x hx; rw [List.eq_of_mem_replicate hx]; simp)) v a ha hok cons' hf
  exact ⟨st', h1, h2, h3.feed (hz _)⟩

/-! ### Columns -/

theorem doneBefore_eq (ints : Int → Bool) (n : Nat) (c : Int) (d : Nat) (hd : d ≤ n) (h1 : ∀ i < d, ints (c + i) = false)
    (h2 : d = n ∨ ints (c + d) = true) : doneBefore ints n c = d := by
  induction n generalizing c d with
  | zero => simp [doneBefore]; omega
  | succ n ih =>
    unfold doneBefore
    cases d with
    | zero =>
      rcases h2 with h2 | h2
      · omega
      · simp only [Nat.cast_zero, add_zero] at h2; simp [h2]
    | succ d =>
      have h0 := h1 0 (by omega)
      simp only [Nat.cast_zero, add_zero] at h0
      rw [h0, ih (c + 1) d (by omega) (by intro i hi; have := h1 (i + 1) (by omega); push_cast at this; rw [add_right_comm, add_assoc]; exact this)
        (by rcases h2 with h2 | h2
            · exact .inl (by omega)
            · right; push_cast at h2; rw [add_right_comm, add_assoc]; exact h2)]
      simp

/-- `calculate_columns` noticing an interrupt after `n` columns. -/
theorem columns_iff (ops : Ops G C K) (maxCol maxRow : Int) (hmr : 0 ≤ maxRow) (hmc : 0 ≤ maxCol) (st st' : Calc G C)
    (needed : List Nat) (hn : st.Needed needed) (hids : ∀ c ∈ st.cons, ∀ id ∈ c.2, id < st.gens.length)
    (hb : -1 ≤ st.buffer) (ints : Int → Bool) (start : Option PyNum) (upto : PyNum) (a b : Int) (n : Nat)
    (ha : ratioToInt (start.getD (.int (st.lastCol + 1))) st.numSeries maxCol = .ok a)
    (hbb : ratioToInt upto st.numSeries maxCol = .ok b) (hdone : doneBefore ints (b - a).toNat a = n) :
    st.calculateColumns ops maxCol maxRow needed ints start upto = .ok st' ↔
      ∃ R : Nat → Int → List (Fl K),
        AllAsked ops.calcColumn (fun _ => maxRow.toNat) needed R (pyRange a (a + n)) st.gens st'.gens ∧
        AllFed ops (fun ids => (pyRange a (a + n)).map fun c => .column c (ids.map fun id => maskRow st.buffer c (R id c)))
          st.cons st'.cons ∧
        st' = { st with gens := st'.gens, cons := st'.cons, lastCol := if n = 0 then st.lastCol else max (a + n - 1) st.lastCol } := by
  have ha0 := (ratioToInt_nonneg _ _ _ _ hmc ha).1
  have hc : Covers needed st.cons := fun c hcm id hid => (hn.mem id).mpr ⟨c, hcm, hid⟩
  rw [calculateColumns_iff ops maxCol maxRow hmr hmc needed _ start upto st st' hn.nodup hc hb a b ha hbb ha0, hdone]
  unfold ColsDone
  rw [ColRounds, RoundsRel_iff ops _ _ needed _ _ ?_ _ _ hc ?_]
  · have hev : ∀ R : Nat → Int → List (Fl K), (fun ids : List Nat => (pyRange a (a + n)).flatMap fun x => colEvs st.buffer x (ids.map fun id => R id x)) =
        (fun ids => (pyRange a (a + n)).map fun c => CEvent.column c (ids.map fun id => maskRow st.buffer c (R id c))) := by
      intro R
      funext ids
      rw [List.flatMap_def]
      simp only [colEvs, List.map_map]
      induction pyRange a (a + n) with
      | nil => rfl
      | cons x xs ih => simp only [List.map_cons, List.flatten_cons, ih]; rfl
    simp only [hev]
    constructor
    · rintro ⟨⟨R, h1, h2⟩, h3⟩; exact ⟨R, h1, h2, h3⟩
    · rintro ⟨R, h1, h2, h3⟩; exact ⟨⟨R, h1, h2⟩, h3⟩
  · apply List.Nodup.map _ List.nodup_range
    intro x y hxy
    simp only at hxy
    omega
  · intro id hid
    obtain ⟨c, h1, h2⟩ := (hn.mem id).mp hid
    exact hids c h1 id h2

/-- `calculate_columns(upto)` with SIGINTs arriving as told by `ints` does the columns of the window left of `k`: `upto` means `k`, or
`upto` means more and the first interrupt noticed is the one at column `k`. `W` is the number of columns of a full window, `first` the
first column to be calculated. -/
def StopsAt (W first : Nat) (ints : Int → Bool) (upto : PyNum) (k : Int) : Prop :=
  ∃ k0 : Int, (upto = .int k0 ∨ ∃ x : ℚ, upto = .float (.fin x) ∧ 0 ≤ x ∧ x ≤ 1 ∧ k0 = ⌈x * W⌉) ∧
    (∀ c : Int, first ≤ c → c < k → ints c = false) ∧ (k = k0 ∨ (first ≤ k ∧ k < k0 ∧ ints k = true))

/-- Every call does that for some `k`. -/
theorem StopsAt.exists (W first : Nat) (ints : Int → Bool) (upto : PyNum) (k0 : Int)
    (h : upto = .int k0 ∨ ∃ x : ℚ, upto = .float (.fin x) ∧ 0 ≤ x ∧ x ≤ 1 ∧ k0 = ⌈x * W⌉) : ∃ k, StopsAt W first ints upto k := by
  classical
  by_cases hex : ∃ n : Nat, (first : Int) + n < k0 ∧ ints (first + n) = true
  · refine ⟨first + (Nat.find hex : Int), k0, h, ?_, .inr ⟨by omega, (Nat.find_spec hex).1, (Nat.find_spec hex).2⟩⟩
    intro c h1 h2
    obtain ⟨n, rfl⟩ : ∃ n : Nat, c = first + n := ⟨(c - first).toNat, by omega⟩
    have hm := Nat.find_min hex (m := n) (by omega)
    have hk := (Nat.find_spec hex).1
    by_contra hne
    exact hm ⟨by omega, by simpa using hne⟩
  · refine ⟨k0, k0, h, ?_, .inl rfl⟩
    intro c h1 h2
    obtain ⟨n, rfl⟩ : ∃ n : Nat, c = first + n := ⟨(c - first).toNat, by omega⟩
    by_contra hne
    exact hex ⟨n, h2, by simpa using hne⟩

set_option maxHeartbeats 1000000 in
theorem feed_columns (H : ∀ i < chan.length, NearServes enc ops.gen m N M (D i) (Rel i) (Ok i) (Inv i))
    (hrefl : ∀ i a b, Rel i (D i a b) (D i a b)) (hm0 : 0 < m) (hN : m ≤ N) (hM : ∀ M', M = some M' → m ≤ M')
    (b : Int) (hb : -1 ≤ b) (st : Streaming G C) (u : MSt α) (needed : List Nat) (hneed : st.base.Needed needed)
    (hids : ∀ c ∈ st.base.cons, ∀ id ∈ c.2, id < chan.length)
    (hi : FeedInv Inv π chan nDim m N M b st u) (k : Int) (ints : Int → Bool) (upto : PyNum)
    (hk : StopsAt (N + 1 - m) (u.next - (u.s.length - N)) ints upto k)
    (hv : u.Valid m M (.columns k))
    (hok : ∀ (i ch : Nat), chan[i]? = some ch → ∀ (l : Option (Int × Bool)) (c : Nat), c + m ≤ (lastN N (u.s.map (π ch))).length → m ≤ (lastN (M.getD N) (u.q.map (π ch))).length →
      (∀ t e, l = some (t, e) → t < (c : Int)) → Ok i ⟨lastN N (u.s.map (π ch)), lastN (M.getD N) (u.q.map (π ch)), l⟩ (.column c))
    (hf : ∀ V, NearTable m chan.length Rel (frameDist π chan D) (lastN N u.s) (lastN (M.getD N) u.q) V →
      ∃ cons', AllFed ops (fun ids => u.eventsOf m N M b (frameDist π chan D) ids V (.columns k)) st.base.cons cons') :
    ∃ V, NearTable m chan.length Rel (frameDist π chan D) (lastN N u.s) (lastN (M.getD N) u.q) V ∧
      ∃ st', st.calculateColumns ops needed ints none upto = .ok st' ∧
      AllFed ops (fun ids => u.eventsOf m N M b (frameDist π chan D) ids V (.columns k)) st.base.cons st'.base.cons ∧
      FeedInv Inv π chan nDim m N M b st' (u.step m N M (.columns k)) := by
  classical
  have hnx := hi.next
  have hl := hi.last
  set w : Nat := (lastN N u.s).length + 1 - m with hw
  set h : Nat := (lastN (M.getD N) u.q).length + 1 - m with hh
  have hwN : w = min N u.s.length + 1 - m := by rw [hw, lastN_length]
  have hhN : h = min (M.getD N) u.q.length + 1 - m := by rw [hh, lastN_length]
  have hMm : m ≤ M.getD N := by
    cases M with
    | none => exact hN
    | some M' => exact hM M' rfl
  have hmc : st.maxColumn = (w : Int) := by
    unfold Streaming.maxColumn
    rw [hi.streamedS, hi.m_eq, hi.cols, hwN]
    omega
  have hmr : st.maxRow = (h : Int) := by
    unfold Streaming.maxRow
    rw [hmc, hi.selfJoin, hi.m_eq, hi.rows, hhN]
    cases M with
    | none => simp only [Option.isNone_none, if_true, Option.getD_none]; rw [hwN, hi.self rfl]
    | some M' =>
      have := hi.streamedQ (by simp)
      simp only [Option.isNone_some, Bool.false_eq_true, if_false, Option.getD_some, this]
      simp only [Option.getD_some] at hMm
      omega
  set start : Nat := u.next - (u.s.length - N) with hstart
  have hstartw : start ≤ w := by omega
  set stop : Nat := min k.toNat w with hstop
  obtain ⟨k0, hk0, hk1, hk2⟩ := hk
  have ha : ratioToInt ((none : Option PyNum).getD (.int (st.base.lastCol + 1))) st.base.numSeries st.maxColumn = .ok (start : Int) := by
    show Except.ok (min (max 0 (st.base.lastCol + 1)) st.maxColumn) = _
    congr 1; omega
  have hbb : ratioToInt upto st.base.numSeries st.maxColumn = .ok ((min k0.toNat w : Nat) : Int) := by
    rcases hk0 with rfl | ⟨x, rfl, x0, x1, rfl⟩
    · show Except.ok (min (max 0 k0) st.maxColumn) = _
      congr 1; omega
    · have e1 : ((Fl.fin x).ltF (.fin 0) || Fl.ltF (.fin 1) (.fin x)) = false := by
        simp [Fl.ltF, not_lt.mpr x0, not_lt.mpr x1]
      simp only [ratioToInt, e1, Bool.false_eq_true, if_false, hi.cols]
      congr 1
      have : (((N + 1 - m : Nat) : Int) : ℚ) = ((N + 1 - m : Nat) : ℚ) := by norm_cast
      rw [this]
      omega
  have hdone : doneBefore ints (((min k0.toNat w : Nat) : Int) - start).toNat start = stop - start := by
    refine doneBefore_eq ints _ _ _ ?_ ?_ ?_
    · omega
    · intro i hi'
      exact hk1 _ (by omega) (by omega)
    · rcases hk2 with rfl | ⟨q1, q2, q3⟩
      · left; omega
      · by_cases hkw : k < w
        · right
          rw [show (start : Int) + ((stop - start : Nat) : Int) = k by omega]
          exact q3
        · left; omega
  have hxs : ((List.range (stop - start)).map (start + ·)).map (fun c : Nat => (c : Int)) = pyRange (start : Int) ((start : Int) + ((stop - start : Nat) : Int)) := by
    unfold pyRange
    rw [List.map_map]
    rw [show ((start : Int) + ((stop - start : Nat) : Int) - start).toNat = stop - start by omega]
    apply List.map_congr_left
    intro i _
    simp
  have hmem : ∀ c, c ∈ (List.range (stop - start)).map (start + ·) ↔ start ≤ c ∧ c < stop := by
    intro c
    rw [List.mem_map]
    constructor
    · rintro ⟨i, hi', rfl⟩; rw [List.mem_range] at hi'; omega
    · rintro ⟨h1, h2⟩; exact ⟨c - start, by rw [List.mem_range]; omega, by omega⟩
  have hq : start < stop → m ≤ (lastN (M.getD N) u.q).length := by
    intro hlt
    rw [lastN_length]
    have := hv (by omega)
    omega
  -- the generators
  set newLast : Int := if stop - start = 0 then st.base.lastCol else max ((start : Int) + ((stop - start : Nat) : Int) - 1) st.base.lastCol with hnl
  have hnew : st.base.lastCol ≤ newLast := by rw [hnl]; split <;> omega
  let Good : Nat → (Int → List (Fl K)) → Prop := fun i row => ∀ c, start ≤ c → c < stop → (row c).length = h ∧
    ∀ r v, (row c)[r]? = some v → Rel i (frameDist π chan D i (win m (lastN N u.s) c) (win m (lastN (M.getD N) u.q) r)) v
  obtain ⟨gr, l1', l2'⟩ := exists_list (fun i (x : G × Nat) (y : (G × Nat) × (Int → List (Fl K))) => y.1.2 = x.2 ∧ (i ∉ needed → y.1 = x) ∧
      (i ∈ needed → Gives ops.calcColumn (fun _ => h) y.2 (pyRange (start : Int) ((start : Int) + ((stop - start : Nat) : Int))) x.1 y.1.1 ∧ Good i y.2) ∧
      ∃ l', Inv i y.1.1 ⟨lastN N (u.s.map (π x.2)), lastN (M.getD N) (u.q.map (π x.2)), l'⟩ ∧ ∀ t e, l' = some (t, e) → t ≤ newLast) st.base.gens (by
    intro i x hx
    obtain ⟨g, ch⟩ := x
    have hch := hi.chan_of_gen i g ch hx
    have hlt : i < chan.length := (List.getElem?_eq_some_iff.mp hch).1
    obtain ⟨g0, last, e1, e2, e3⟩ := hi.gen i ch hch
    rw [hx] at e1
    obtain ⟨rfl, -⟩ := Prod.mk.inj (Option.some.inj e1)
    have hchD : chan.getD i 0 = ch := by rw [List.getD_eq_getElem?_getD, hch]; rfl
    by_cases hin : i ∈ needed ∧ start < stop
    · obtain ⟨hin, hlt'⟩ := hin
      obtain ⟨g', l', row, c1, c1', c2, c3⟩ := (H i hlt).gives_columns (lastN N (u.s.map (π ch))) (lastN (M.getD N) (u.q.map (π ch)))
        (fun l c => ∀ t e, l = some (t, e) → t < (c : Int)) (fun l c hc hs => hok i ch hch l c hc (by rw [lastN_map, List.length_map]; exact hq hlt') hs)
        ((List.range (stop - start)).map (start + ·)) (List.Nodup.map (by intro x y hxy; simpa using hxy) List.nodup_range)
        (by
          rw [List.pairwise_map]
          refine List.pairwise_lt_range.imp fun {x y} hxy t e h => ?_
          cases h; omega)
        (by intro c hc; rw [hmem] at hc; rw [lastN_map, List.length_map]; omega) g last e2
        (by
          intro c hc t e he
          rw [hmem] at hc
          have := e3 t e he
          omega)
      refine ⟨((g', ch), row), rfl, fun hno => absurd hin hno, fun _ => ⟨?_, ?_⟩, l', c2, ?_⟩
      · rw [← hxs]
        rw [lastN_map (π ch) (M.getD N) u.q, List.length_map] at c1
        exact c1
      · intro c hc1 hc2
        obtain ⟨p1, p2⟩ := c1' c ((hmem c).mpr ⟨hc1, hc2⟩)
        refine ⟨by rw [p1, lastN_map, List.length_map], fun r v hv => ?_⟩
        have := p2 r v hv
        rw [lastN_map, lastN_map, win_map, win_map] at this
        unfold frameDist
        rw [hchD]
        exact this
      · intro t e he
        rcases c3 t e he with ⟨-, c, hc, rfl⟩ | h'
        · rw [hmem] at hc
          rw [hnl, if_neg (by omega)]
          omega
        · have := e3 t e h'; omega
    · refine ⟨((g, ch), fun _ => []), rfl, fun _ => rfl, fun hin' => ?_, last, e2, fun t e he => le_trans (e3 t e he) hnew⟩
      have : stop - start = 0 := by
        by_contra hne
        exact hin ⟨hin', by omega⟩
      refine ⟨?_, fun c h1 h2 => by omega⟩
      rw [← hxs, this]
      rfl)
  set gens' : List (G × Nat) := gr.map Prod.fst with hgens'
  have l1 : gens'.length = st.base.gens.length := by rw [hgens', List.length_map, l1']
  set R : Nat → Int → List (Fl K) := fun i => match gr[i]? with
    | some y => y.2
    | none => fun _ => [] with hR
  have l2 : ∀ i (x y : G × Nat), st.base.gens[i]? = some x → gens'[i]? = some y → y.2 = x.2 ∧ (i ∉ needed → y = x) ∧
      (i ∈ needed → Gives ops.calcColumn (fun _ => h) (R i) (pyRange (start : Int) ((start : Int) + ((stop - start : Nat) : Int))) x.1 y.1 ∧ Good i (R i)) ∧
      ∃ l', Inv i y.1 ⟨lastN N (u.s.map (π x.2)), lastN (M.getD N) (u.q.map (π x.2)), l'⟩ ∧ ∀ t e, l' = some (t, e) → t ≤ newLast := by
    intro i x y hx hy
    rw [hgens', List.getElem?_map] at hy
    obtain ⟨z, hz, rfl⟩ := Option.map_eq_some_iff.mp hy
    have := l2' i x z hx hz
    have hRi : R i = z.2 := by rw [hR]; simp only [hz]
    rw [hRi]
    exact this
  set V : Table K := fun id r c =>
    if Rel id (frameDist π chan D id (win m (lastN N u.s) c) (win m (lastN (M.getD N) u.q) r)) (((R id c)[r]?).getD .nan) then ((R id c)[r]?).getD .nan
    else frameDist π chan D id (win m (lastN N u.s) c) (win m (lastN (M.getD N) u.q) r) with hV
  have hVnear : NearTable m chan.length Rel (frameDist π chan D) (lastN N u.s) (lastN (M.getD N) u.q) V := by
    intro id _ r c _ _
    rw [hV]
    dsimp only
    split
    · assumption
    · exact hrefl _ _ _
  obtain ⟨cons', hf⟩ := hf V hVnear
  have hasked : AllAsked ops.calcColumn (fun _ => h) needed R (pyRange (start : Int) ((start : Int) + ((stop - start : Nat) : Int))) st.base.gens gens' := by
    refine ⟨l1, ?_, ?_⟩
    · intro id hid
      obtain ⟨c, c1, c2⟩ := (hneed.mem id).mp hid
      have hlt := hids c c1 id c2
      have hlt1 : id < st.base.gens.length := by rw [hi.genLen]; exact hlt
      have hlt2 : id < gens'.length := by rw [l1]; exact hlt1
      obtain ⟨e1, e2, e3, e4⟩ := l2 id _ _ (List.getElem?_eq_getElem hlt1) (List.getElem?_eq_getElem hlt2)
      refine ⟨st.base.gens[id].1, st.base.gens[id].2, gens'[id].1, List.getElem?_eq_getElem hlt1, ?_, (e3 hid).1⟩
      rw [List.getElem?_eq_getElem hlt2, ← e1]
    · intro id hid
      by_cases hlt : id < st.base.gens.length
      · have hlt2 : id < gens'.length := by rw [l1]; exact hlt
        obtain ⟨e1, e2, e3, e4⟩ := l2 id _ _ (List.getElem?_eq_getElem hlt) (List.getElem?_eq_getElem hlt2)
        rw [List.getElem?_eq_getElem hlt2, List.getElem?_eq_getElem hlt, e2 hid]
      · rw [List.getElem?_eq_none (by omega), List.getElem?_eq_none (by omega)]
  have hfed : AllFed ops (fun ids => (pyRange (start : Int) ((start : Int) + ((stop - start : Nat) : Int))).map fun c =>
      CEvent.column c (ids.map fun id => maskRow b c (R id c))) st.base.cons cons' := by
    refine hf.congr fun c hcm => ?_
    simp only [MSt.eventsOf]
    rw [← hxs, List.map_map, List.map_map]
    apply List.map_congr_left
    intro i hi'
    rw [List.mem_range] at hi'
    simp only [Function.comp]
    congr 1
    apply List.map_congr_left
    intro id hid
    have hneedid : id ∈ needed := (hneed.mem id).mpr ⟨c, hcm, hid⟩
    have hlt1 : id < st.base.gens.length := by rw [hi.genLen]; exact hids c hcm id hid
    have hlt2 : id < gens'.length := by rw [l1]; exact hlt1
    obtain ⟨-, -, e3, -⟩ := l2 id _ _ (List.getElem?_eq_getElem hlt1) (List.getElem?_eq_getElem hlt2)
    obtain ⟨p1, p2⟩ := (e3 hneedid).2 (start + i) (by omega) (by omega)
    unfold tableColumn maskRow
    apply List.ext_getElem?
    intro r
    rw [List.getElem?_mapIdx, List.getElem?_map, ← hh]
    by_cases hr : r < h
    · have hr' : r < (R id ((start + i : Nat) : Int)).length := by rw [p1]; exact hr
      have hval : (R id ((start + i : Nat) : Int))[r]? = some (R id ((start + i : Nat) : Int))[r] := List.getElem?_eq_getElem hr'
      rw [List.getElem?_range hr, hval]
      simp only [Option.map_some]
      congr 1
      have : V id r (start + i) = (R id ((start + i : Nat) : Int))[r] := by
        rw [hV]
        dsimp only
        rw [hval, Option.getD_some, if_pos (p2 r _ hval)]
      rw [this]
    · rw [List.getElem?_eq_none (by simp; omega), List.getElem?_eq_none (by rw [p1]; omega)]
      rfl
  let st' : Streaming G C := { st with base := { st.base with gens := gens', cons := cons', lastCol := newLast } }
  have hcols : st.base.calculateColumns ops st.maxColumn st.maxRow needed ints none upto = .ok st'.base := by
    refine (columns_iff ops st.maxColumn st.maxRow (by omega) (by omega) st.base st'.base needed hneed
      (fun c hc id hid => by rw [hi.genLen]; exact hids c hc id hid) (by rw [hi.buffer]; exact hb) ints none upto (start : Int) _ (stop - start) ha hbb hdone).mpr
      ⟨R, ?_, ?_, rfl⟩
    · simp only [hmr, Int.toNat_natCast]
      exact hasked
    · rw [hi.buffer]; exact hfed
  refine ⟨V, hVnear, st', ?_, hf, ?_⟩
  · unfold Streaming.calculateColumns
    simp only [hcols, bind, Except.bind, pure, Except.pure]
    rfl
  · refine ⟨l1.trans hi.genLen, ?_, hi.chanLt, hi.selfJoin, hi.m_eq, hi.nDim, hi.cols, hi.rows, hi.buffer, ?_, hi.streamedS, hi.streamedQ, hi.self, ?_⟩
    · intro i ch hch
      obtain ⟨g, last, e1, _, _⟩ := hi.gen i ch hch
      have hlt : i < gens'.length := by rw [l1]; exact (List.getElem?_eq_some_iff.mp e1).1
      obtain ⟨f1, f2, f3, l', f4, f5⟩ := l2 i _ _ e1 (List.getElem?_eq_getElem hlt)
      refine ⟨gens'[i].1, l', ?_, f4, f5⟩
      show gens'[i]? = _
      rw [List.getElem?_eq_getElem hlt]
      congr 1
      exact Prod.ext rfl f1
    · show newLast + 1 = ((max u.next (u.s.length - N + stop) - (u.s.length - N) : Nat) : Int)
      rw [hnl]
      split <;> omega
    · show max u.next (u.s.length - N + stop) ≤ u.s.length + 1 - m
      omega

/-- The call that stands for an abstract call made in state `u`. -/
def IsCallAtOf (nDim : Nat) (ρ : Nat → α → Fl K) (m N : Nat) (u : MSt α) : MOp α → Streaming.Op K → Prop
  | .series v, .series a => IsArrayOf nDim ρ v a
  | .query v, .query a => IsArrayOf nDim ρ v a
  | .columns k, .columns ints upto => StopsAt (N + 1 - m) (u.next - (u.s.length - N)) ints upto k
  | _, _ => False

/-- A sequence of calls standing for abstract calls. -/
def AreCallsOf (nDim : Nat) (ρ : Nat → α → Fl K) (m N : Nat) (M : Option Nat) : MSt α → List (MOp α) → List (Streaming.Op K) → Prop
  | _, [], [] => True
  | u, x :: xs, o :: os => IsCallAtOf nDim ρ m N u x o ∧ AreCallsOf nDim ρ m N M (u.step m N M x) xs os
  | _, _, _ => False

/-- The same for finite data. -/
abbrev AreCalls (nDim : Nat) (π : Nat → α → K) (m N : Nat) (M : Option Nat) (u : MSt α) (us : List (MOp α)) (os : List (Streaming.Op K)) : Prop :=
  AreCallsOf nDim (fun ch x => .fin (π ch x)) m N M u us os

/-- The distances themselves are near. -/
theorem exists_allNear (hrefl : ∀ i a b, Rel i (D i a b) (D i a b)) (us : List (MOp α)) : ∀ u : MSt α,
    ∃ vs : List (MOp α × Table K), vs.map Prod.fst = us ∧ u.AllNear m N M chan.length Rel (frameDist π chan D) vs := by
  induction us with
  | nil => intro u; exact ⟨[], rfl, trivial⟩
  | cons x us ih =>
    intro u
    obtain ⟨vs, h1, h2⟩ := ih (u.step m N M x)
    exact ⟨(x, fun id r c => frameDist π chan D id (win m (lastN N u.s) c) (win m (lastN (M.getD N) u.q) r)) :: vs, by simp [h1],
      fun _ _ _ _ _ _ => hrefl _ _ _, h2⟩

theorem feed_run (H : ∀ i < chan.length, NearServes enc ops.gen m N M (D i) (Rel i) (Ok i) (Inv i)) (hrefl : ∀ i a b, Rel i (D i a b) (D i a b))
    (hm0 : 0 < m) (hN : m ≤ N) (hM : ∀ M', M = some M' → m ≤ M')
    (b : Int) (hb : -1 ≤ b) (needed : List Nat) (good : Nat → List E → List E → Prop)
    (sok : Nat → List E → Prop) (hser : ∀ i < chan.length, ∀ w x, sok i x → Ok i w (.series x))
    (hqu : M ≠ none → ∀ i < chan.length, ∀ w x, sok i x → Ok i w (.query x))
    (hcol : ∀ i < chan.length, ∀ (s q : List E) (l : Option (Int × Bool)) (c : Nat), good i s q → c + m ≤ s.length → m ≤ q.length →
      (∀ t e, l = some (t, e) → t < (c : Int)) → Ok i ⟨s, q, l⟩ (.column c)) (us : List (MOp α)) :
    ∀ (os : List (Streaming.Op K)) (st : Streaming G C) (u : MSt α), FeedInv Inv π chan nDim m N M b st u →
      st.base.Needed needed → (∀ c ∈ st.base.cons, ∀ id ∈ c.2, id < chan.length) → AreCallsOf nDim (fun ch x => enc (π ch x)) m N M u us os →
      u.All m N M (fun u op => u.Valid m M op ∧ (∀ k, op = .columns k → ∀ (i ch : Nat), chan[i]? = some ch →
        good i (lastN N (u.s.map (π ch))) (lastN (M.getD N) (u.q.map (π ch)))) ∧
        ∀ v, op = .series v ∨ op = .query v → ∀ (i ch : Nat), chan[i]? = some ch → sok i (v.map (π ch))) us →
      (∀ vs : List (MOp α × Table K), vs.map Prod.fst = us → u.AllNear m N M chan.length Rel (frameDist π chan D) vs →
        ∃ cons', AllFed ops (fun ids => MSt.allEventsOf m N M b (frameDist π chan D) ids u vs) st.base.cons cons') →
      ∃ vs : List (MOp α × Table K), vs.map Prod.fst = us ∧ u.AllNear m N M chan.length Rel (frameDist π chan D) vs ∧
        ∃ st', Streaming.run ops needed os st = .ok st' ∧
          AllFed ops (fun ids => MSt.allEventsOf m N M b (frameDist π chan D) ids u vs) st.base.cons st'.base.cons := by
  induction us with
  | nil =>
    intro os st u hi _ _ hc _ hf
    cases os with
    | nil => exact ⟨[], rfl, trivial, st, rfl, AllFed.refl_nil _ _⟩
    | cons o os => exact hc.elim
  | cons x us ih =>
    intro os st u hi hneed hids hc hall hf
    cases os with
    | nil => exact hc.elim
    | cons o os =>
      obtain ⟨h1, h2⟩ := hc
      obtain ⟨⟨hv, hg, hsok⟩, hall⟩ := hall
      have hfirst : ∀ V, NearTable m chan.length Rel (frameDist π chan D) (lastN N u.s) (lastN (M.getD N) u.q) V →
          ∃ cons', AllFed ops (fun ids => u.eventsOf m N M b (frameDist π chan D) ids V x) st.base.cons cons' := by
        intro V hV
        obtain ⟨vs, q1, q2⟩ := exists_allNear (π := π) (chan := chan) (m := m) (N := N) (M := M) hrefl us (u.step m N M x)
        obtain ⟨c2, hf2⟩ := hf ((x, V) :: vs) (by simp [q1]) ⟨hV, q2⟩
        obtain ⟨c1, hf1, -⟩ := AllFed.split (e1 := fun ids => u.eventsOf m N M b (frameDist π chan D) ids V x)
          (e2 := fun ids => MSt.allEventsOf m N M b (frameDist π chan D) ids (u.step m N M x) vs) hf2
        exact ⟨c1, hf1⟩
      have hexact : NearTable m chan.length Rel (frameDist π chan D) (lastN N u.s) (lastN (M.getD N) u.q)
          (fun id r c => frameDist π chan D id (win m (lastN N u.s) c) (win m (lastN (M.getD N) u.q) r)) := fun _ _ _ _ _ _ => hrefl _ _ _
      obtain ⟨V, hV, st1, e1, e2, e3⟩ : ∃ V, NearTable m chan.length Rel (frameDist π chan D) (lastN N u.s) (lastN (M.getD N) u.q) V ∧
          ∃ st1, Streaming.step ops needed st o = .ok st1 ∧
            AllFed ops (fun ids => u.eventsOf m N M b (frameDist π chan D) ids V x) st.base.cons st1.base.cons ∧
            FeedInv Inv π chan nDim m N M b st1 (u.step m N M x) := by
        cases x with
        | series v =>
          cases o with
          | series a =>
            obtain ⟨c1, hf1⟩ := hfirst _ hexact
            obtain ⟨st1, p1, p2, p3⟩ := feed_series H hm0 hN b st u hi v a h1 (fun i ch hch w => hser i (List.getElem?_eq_some_iff.mp hch).1 w _ (hsok v (.inl rfl) i ch hch)) c1 hf1
            exact ⟨_, hexact, st1, p1, p2 ▸ hf1, p3⟩
          | query a => exact h1.elim
          | columns i k => exact h1.elim
        | query v =>
          cases o with
          | query a =>
            cases M with
            | none => exact absurd rfl hv
            | some M' =>
              obtain ⟨c1, hf1⟩ := hfirst _ hexact
              obtain ⟨st1, p1, p2, p3⟩ := feed_query H hm0 (hM M' rfl) b st u hi v a h1 (fun i ch hch w => hqu (by simp) i (List.getElem?_eq_some_iff.mp hch).1 w _ (hsok v (.inr rfl) i ch hch)) c1 hf1
              exact ⟨_, hexact, st1, p1, p2 ▸ hf1, p3⟩
          | series a => exact h1.elim
          | columns i k => exact h1.elim
        | columns k =>
          cases o with
          | columns i upto =>
            exact feed_columns H hrefl hm0 hN hM b hb st u needed hneed hids hi k i upto h1 hv
              (fun j ch hch l c p1 p2 p3 => hcol j (List.getElem?_eq_some_iff.mp hch).1 _ _ l c (hg k rfl j ch hch) p1 p2 p3) hfirst
          | series a => exact h1.elim
          | query a => exact h1.elim
      have hidseq : st1.base.cons.map Prod.snd = st.base.cons.map Prod.snd := e2.ids
      obtain ⟨vs, q1, q2, st2, e4, e5⟩ := ih os st1 _ e3 (needed_of_ids' hidseq hneed) (by
        intro c hc' id hid
        have : c.2 ∈ st1.base.cons.map Prod.snd := List.mem_map.mpr ⟨c, hc', rfl⟩
        rw [hidseq] at this
        obtain ⟨c', q1, q2⟩ := List.mem_map.mp this
        exact hids c' q1 id (by rw [q2]; exact hid)) h2 hall (by
        intro vs q1 q2
        obtain ⟨c2, hf2⟩ := hf ((x, V) :: vs) (by simp [q1]) ⟨hV, q2⟩
        obtain ⟨c1, hf1, hf2⟩ := AllFed.split (e1 := fun ids => u.eventsOf m N M b (frameDist π chan D) ids V x)
          (e2 := fun ids => MSt.allEventsOf m N M b (frameDist π chan D) ids (u.step m N M x) vs) hf2
        rw [hf1.unique e2] at hf2
        exact ⟨c2, hf2⟩)
      refine ⟨(x, V) :: vs, by simp [q1], ⟨hV, q2⟩, st2, by rw [Streaming.run, e1]; exact e4, ?_⟩
      exact AllFed.trans e2 e5

/-- With the distances themselves in the tables the events are those of `MSt.allEvents`. -/
theorem allEventsOf_exact (b : Int) (hbj : M ≠ none → b = -1) (ids : List Nat) (n : Nat) (hids : ∀ id ∈ ids, id < n) (E : Nat → List α → List α → Fl K)
    (hm0 : 0 < m) :
    ∀ (vs : List (MOp α × Table K)) (u : MSt α), (M = none → u.q = u.s) → u.All m N M (fun u op => u.Valid m M op) (vs.map Prod.fst) →
      u.AllNear m N M n (fun _ => Eq) E vs → MSt.allEventsOf m N M b E ids u vs = MSt.allEvents m N M b E ids u (vs.map Prod.fst) := by
  intro vs
  induction vs with
  | nil => intro u _ _ _; rfl
  | cons x vs ih =>
    intro u hs hv hn
    obtain ⟨op, V⟩ := x
    obtain ⟨hn, hns⟩ := hn
    obtain ⟨hv, hvs⟩ := hv
    rw [List.map_cons, MSt.allEventsOf, MSt.allEvents, ih (u.step m N M op) ?_ hvs hns]
    · congr 1
      cases op with
      | series v => rfl
      | query v => rfl
      | columns k =>
        simp only [MSt.eventsOf, MSt.events]
        apply List.map_congr_left
        intro i hi
        rw [List.mem_range] at hi
        congr 1
        apply List.map_congr_left
        intro id hid
        unfold tableColumn
        apply List.map_congr_left
        intro r hr
        rw [List.mem_range] at hr
        unfold MSt.cell
        have hcond : ((r : Int) - ((u.next - (u.s.length - N) + i : Nat) : Int) ≤ b ∧ ((u.next - (u.s.length - N) + i : Nat) : Int) - r ≤ b) ↔
            (((r + (u.q.length - M.getD N) : Nat) : Int) - ((u.next - (u.s.length - N) + i + (u.s.length - N) : Nat) : Int) ≤ b ∧
              ((u.next - (u.s.length - N) + i + (u.s.length - N) : Nat) : Int) - ((r + (u.q.length - M.getD N) : Nat) : Int) ≤ b) := by
          cases M with
          | none => rw [hs rfl]; simp only [Option.getD_none]; omega
          | some M' => rw [hbj (by simp)]; omega
        refine if_congr hcond rfl ?_
        have := hn id (hids id hid) r (u.next - (u.s.length - N) + i) (by omega) (by omega)
        dsimp only at this
        rw [← this]
        have w1 := win_lastN m N u.s (u.next - (u.s.length - N) + i)
        have w2 := win_lastN m (M.getD N) u.q r
        unfold win at w1 w2
        rw [w1, w2]
    · intro h
      subst h
      cases op with
      | series v => simp [MSt.step, hs rfl]
      | query v => exact absurd rfl hv
      | columns k => exact hs rfl

end

end Verif
