import Verif.Model.Batch
import Verif.Spec.BatchFeed
import Verif.Lemmas.StreamFeed

/-!
A batch calculation with any generators: what the consumers receive.
-/

namespace Verif
open Spec
variable {α E G C K : Type}

theorem diagCount_eq (ints : Nat → Bool) (v : Int) (ls : List Int) (c : Int) (n k : Nat) (hk : k ≤ ls.length)
    (h1 : ∀ j < k, c + (ls.take j).sum < v ∧ ints (n + j) = false) (h2 : ¬ (c + (ls.take k).sum < v ∧ ints (n + k) = false)) :
    diagCount ints v ls c n = some k := by
  induction ls generalizing c n k with
  | nil =>
    have : k = 0 := by simpa using hk
    subst this
    unfold diagCount
    rw [if_neg (by simpa using h2)]
  | cons l ls ih =>
    unfold diagCount
    cases k with
    | zero => rw [if_neg (by simpa using h2)]
    | succ k =>
      rw [if_pos (by simpa using h1 0 (by omega)), ih (c + l) (n + 1) k (by simpa using hk) ?_ ?_]
      · rfl
      · intro j hj
        have := h1 (j + 1) (by omega)
        rw [List.take_succ_cons, List.sum_cons] at this
        exact ⟨by omega, by rw [← this.2]; congr 1; omega⟩
      · intro h
        apply h2
        rw [List.take_succ_cons, List.sum_cons]
        exact ⟨by omega, by rw [← h.2]; congr 1; omega⟩

/-- `Rel id` for the frames of channel `chan id`. -/
def frameRel (π : Nat → α → E) (chan : List Nat) (Rel : Nat → List E → List E → Fl K → Prop) : Nat → List α → List α → Fl K → Prop :=
  fun id w x v => Rel id (w.map (π (chan.getD id 0))) (x.map (π (chan.getD id 0))) v

/-- The integer that an argument stands for: itself, or the rounded up part of `full`. -/
def Amount (full : Nat) (p : PyNum) (v : Int) : Prop := p = .int v ∨ ∃ x : ℚ, p = .float (.fin x) ∧ 0 ≤ x ∧ x ≤ 1 ∧ v = ⌈x * full⌉

theorem Amount.ratio {full limit : Nat} {p : PyNum} {v : Int} (h : Amount full p v) :
    ratioToInt p full limit = .ok ((min v.toNat limit : Nat) : Int) := by
  rcases h with rfl | ⟨x, rfl, x0, x1, rfl⟩
  · show Except.ok (min (max 0 v) (limit : Int)) = _
    congr 1; omega
  · have e1 : ((Fl.fin x).ltF (.fin 0) || Fl.ltF (.fin 1) (.fin x)) = false := by
      simp [Fl.ltF, not_lt.mpr x0, not_lt.mpr x1]
    simp only [ratioToInt, e1, Bool.false_eq_true, if_false]
    congr 1
    have : ((full : Int) : ℚ) = (full : ℚ) := by norm_cast
    rw [this]
    omega

/-- The calculation that a call makes in state `u`. `calculate_diagonals(amount)` goes on until the wanted number of distances is reached, all
diagonals are done or an interrupt is noticed; `calculate_columns(start, upto)` goes on until `upto` or until an interrupt is noticed. `h`, `w`:
number of subsequences of the query and the series. -/
def IsBatchCall (m nq ns : Nat) (order : List Int) (u : BSt) : BOp → Anytime.Op → Prop
  | .diagonals n, .diagonals ints p => ∃ v, Amount (valuesUpto m nq ns order order.length) p v ∧ u.next ≤ n ∧ n ≤ order.length ∧
      (∀ k, u.next ≤ k → k < n → (valuesUpto m nq ns order k : Int) < v ∧ ints k = false) ∧
      (n = order.length ∨ v ≤ valuesUpto m nq ns order n ∨ ints n = true)
  | .columns a c, .columns ints start upto => ∃ a0 b0 : Int, ((start = none ∧ a0 = u.col) ∨ ∃ p, start = some p ∧ Amount (ns + 1 - m) p a0) ∧
      a = min a0.toNat (ns + 1 - m) ∧ Amount (ns + 1 - m) upto b0 ∧ (∀ k : Nat, a ≤ k → k < c → ints k = false) ∧
      (c = min b0.toNat (ns + 1 - m) ∨ (a ≤ c ∧ c < min b0.toNat (ns + 1 - m) ∧ ints c = true))
  | _, _ => False

/-- A sequence of calls standing for calculations. -/
def AreBatchCalls (m nq ns : Nat) (order : List Int) : BSt → List BOp → List Anytime.Op → Prop
  | _, [], [] => True
  | u, x :: xs, o :: os => IsBatchCall m nq ns order u x o ∧ AreBatchCalls m nq ns order (u.step x) xs os
  | _, _, _ => False

theorem IsBatchCall.exists_diagonals (m nq ns : Nat) (order : List Int) (u : BSt) (hu : u.next ≤ order.length) (ints : Nat → Bool) (p : PyNum) (v : Int)
    (hp : Amount (valuesUpto m nq ns order order.length) p v) : ∃ n, IsBatchCall m nq ns order u (.diagonals n) (.diagonals ints p) := by
  classical
  have hex : ∃ n, u.next ≤ n ∧ (n = order.length ∨ v ≤ valuesUpto m nq ns order n ∨ ints n = true) := ⟨order.length, hu, .inl rfl⟩
  refine ⟨Nat.find hex, v, hp, (Nat.find_spec hex).1, Nat.find_min' hex ⟨hu, .inl rfl⟩, fun k h1 h2 => ?_, (Nat.find_spec hex).2⟩
  have h3 := Nat.find_min hex h2
  rw [not_and, not_or, not_or] at h3
  obtain ⟨-, h4, h5⟩ := h3 h1
  exact ⟨not_le.mp h4, by simpa using h5⟩

theorem IsBatchCall.exists_columns (m nq ns : Nat) (order : List Int) (u : BSt) (ints : Int → Bool) (start : Option PyNum) (upto : PyNum)
    (a0 b0 : Int) (h1 : (start = none ∧ a0 = u.col) ∨ ∃ p, start = some p ∧ Amount (ns + 1 - m) p a0) (h2 : Amount (ns + 1 - m) upto b0) :
    ∃ a c, IsBatchCall m nq ns order u (.columns a c) (.columns ints start upto) := by
  classical
  by_cases hex : ∃ c : Nat, min a0.toNat (ns + 1 - m) ≤ c ∧ c < min b0.toNat (ns + 1 - m) ∧ ints c = true
  · refine ⟨_, Nat.find hex, a0, b0, h1, rfl, h2, fun k k1 k2 => ?_, .inr (Nat.find_spec hex)⟩
    have h3 := Nat.find_min hex k2
    have h4 := (Nat.find_spec hex).2.1
    by_contra hne
    exact h3 ⟨k1, by omega, by simpa using hne⟩
  · refine ⟨_, min b0.toNat (ns + 1 - m), a0, b0, h1, rfl, h2, fun k k1 k2 => ?_, .inl rfl⟩
    by_contra hne
    exact hex ⟨k, k1, k2, by simpa using hne⟩

/-- The state of the calculator and its generators fits the calls made so far. -/
structure BatchInv (Inv : Nat → G → GSt E → Prop) (π : Nat → α → E) (chan : List Nat) (m : Nat) (s q : List α) (selfJoin : Bool) (b : Int)
    (order : List Int) (needed : List Nat) (st : Anytime G C K) (u : BSt) : Prop where
  genLen : st.base.gens.length = chan.length
  gen : ∀ (i ch : Nat), chan[i]? = some ch → ∃ g last, st.base.gens[i]? = some (g, ch) ∧
    Inv i g ⟨s.map (π ch), q.map (π ch), last⟩ ∧ ∀ t e, last = some (t, e) → e = true
  valid : st.Valid needed
  ids : ∀ c ∈ st.base.cons, ∀ id ∈ c.2, id < chan.length
  selfJoin : st.base.selfJoin = selfJoin
  cols : st.base.numSeries = ((s.length + 1 - m : Nat) : Int)
  rows : st.base.numQuery = ((q.length + 1 - m : Nat) : Int)
  buffer : st.base.buffer = b
  order : st.order = order
  next : st.next = u.next
  last : st.base.lastCol + 1 = u.col
  colLe : u.col ≤ s.length + 1 - m

section
variable {ops : Ops G C K} {m N : Nat} {M : Option Nat} {D : Nat → List E → List E → Fl K}
  {RelD RelC : Nat → List E → List E → Fl K → Prop} {Ok : Nat → GSt E → GOp E → Prop}
  {Inv : Nat → G → GSt E → Prop} {π : Nat → α → E} {chan : List Nat} {s q : List α} {selfJoin : Bool} {b : Int} {order : List Int} {needed : List Nat}

theorem BatchInv.chan_of_gen {st : Anytime G C K} {u : BSt} (hi : BatchInv Inv π chan m s q selfJoin b order needed st u) (i : Nat) (g : G) (ch : Nat)
    (h : st.base.gens[i]? = some (g, ch)) : chan[i]? = some ch := by
  have hlt : i < chan.length := by rw [← hi.genLen]; exact (List.getElem?_eq_some_iff.mp h).1
  obtain ⟨g', last, e1, -⟩ := hi.gen i chan[i] (List.getElem?_eq_getElem hlt)
  rw [h] at e1
  rw [List.getElem?_eq_getElem hlt, (Prod.mk.inj (Option.some.inj e1)).2]

/-- Generators one by one: rows `R i` with `P i` for the needed ones, the others stay. -/
theorem batch_gens {st : Anytime G C K} {u : BSt} (hi : BatchInv Inv π chan m s q selfJoin b order needed st u)
    (ask : G → Int → Except PyErr (G × List (Fl K))) (n : Int → Nat) (P : Nat → (Int → List (Fl K)) → Prop) (xs : List Int)
    (h : ∀ (i ch : Nat) (g : G) (last : Option (Int × Bool)), chan[i]? = some ch → i ∈ needed → Inv i g ⟨s.map (π ch), q.map (π ch), last⟩ →
      (∀ t e, last = some (t, e) → e = true) → ∃ row g' last', Gives ask n row xs g g' ∧ P i row ∧ Inv i g' ⟨s.map (π ch), q.map (π ch), last'⟩ ∧
        ∀ t e, last' = some (t, e) → e = true) :
    ∃ (R : Nat → Int → List (Fl K)) (gens' : List (G × Nat)), AllAsked ask n needed R xs st.base.gens gens' ∧ (∀ id ∈ needed, P id (R id)) ∧
      gens'.length = chan.length ∧
      ∀ (i ch : Nat), chan[i]? = some ch → ∃ g last, gens'[i]? = some (g, ch) ∧
        Inv i g ⟨s.map (π ch), q.map (π ch), last⟩ ∧ ∀ t e, last = some (t, e) → e = true := by
  obtain ⟨gr, l1', l2'⟩ := exists_list (fun i (x : G × Nat) (y : (G × Nat) × (Int → List (Fl K))) => y.1.2 = x.2 ∧ (i ∉ needed → y.1 = x) ∧
      (i ∈ needed → Gives ask n y.2 xs x.1 y.1.1 ∧ P i y.2) ∧
      ∃ l', Inv i y.1.1 ⟨s.map (π x.2), q.map (π x.2), l'⟩ ∧ ∀ t e, l' = some (t, e) → e = true) st.base.gens (by
    intro i x hx
    obtain ⟨g, ch⟩ := x
    have hch := hi.chan_of_gen i g ch hx
    obtain ⟨g0, last, e1, e2, e3⟩ := hi.gen i ch hch
    rw [hx] at e1
    obtain ⟨rfl, -⟩ := Prod.mk.inj (Option.some.inj e1)
    by_cases hin : i ∈ needed
    · obtain ⟨row, g', l', c1, c1', c2, c3⟩ := h i ch g last hch hin e2 e3
      exact ⟨((g', ch), row), rfl, fun hno => absurd hin hno, fun _ => ⟨c1, c1'⟩, l', c2, c3⟩
    · exact ⟨((g, ch), fun _ => []), rfl, fun _ => rfl, fun h' => absurd h' hin, last, e2, e3⟩)
  set gens' : List (G × Nat) := gr.map Prod.fst with hgens'
  have l1 : gens'.length = st.base.gens.length := by rw [hgens', List.length_map, l1']
  set R : Nat → Int → List (Fl K) := fun i => match gr[i]? with
    | some y => y.2
    | none => fun _ => [] with hR
  have l2 : ∀ i (x y : G × Nat), st.base.gens[i]? = some x → gens'[i]? = some y → y.2 = x.2 ∧ (i ∉ needed → y = x) ∧
      (i ∈ needed → Gives ask n (R i) xs x.1 y.1 ∧ P i (R i)) ∧
      ∃ l', Inv i y.1 ⟨s.map (π x.2), q.map (π x.2), l'⟩ ∧ ∀ t e, l' = some (t, e) → e = true := by
    intro i x y hx hy
    rw [hgens', List.getElem?_map] at hy
    obtain ⟨z, hz, rfl⟩ := Option.map_eq_some_iff.mp hy
    have := l2' i x z hx hz
    have hRi : R i = z.2 := by rw [hR]; simp only [hz]
    rw [hRi]
    exact this
  have hlts : ∀ id ∈ needed, ∃ (h1 : id < st.base.gens.length) (h2 : id < gens'.length), True := by
    intro id hid
    obtain ⟨c, c1, c2⟩ := (hi.valid.needed.mem id).mp hid
    have hlt1 : id < st.base.gens.length := by rw [hi.genLen]; exact hi.ids c c1 id c2
    exact ⟨hlt1, by rw [l1]; exact hlt1, trivial⟩
  refine ⟨R, gens', ⟨l1, ?_, ?_⟩, ?_, l1.trans hi.genLen, ?_⟩
  · intro id hid
    obtain ⟨hlt1, hlt2, -⟩ := hlts id hid
    obtain ⟨e1, e2, e3, e4⟩ := l2 id _ _ (List.getElem?_eq_getElem hlt1) (List.getElem?_eq_getElem hlt2)
    refine ⟨st.base.gens[id].1, st.base.gens[id].2, gens'[id].1, List.getElem?_eq_getElem hlt1, ?_, (e3 hid).1⟩
    rw [List.getElem?_eq_getElem hlt2, ← e1]
  · intro id hid
    by_cases hlt : id < st.base.gens.length
    · have hlt2 : id < gens'.length := by rw [l1]; exact hlt
      obtain ⟨e1, e2, e3, e4⟩ := l2 id _ _ (List.getElem?_eq_getElem hlt) (List.getElem?_eq_getElem hlt2)
      rw [List.getElem?_eq_getElem hlt2, List.getElem?_eq_getElem hlt, e2 hid]
    · rw [List.getElem?_eq_none (by omega), List.getElem?_eq_none (by omega)]
  · intro id hid
    obtain ⟨hlt1, hlt2, -⟩ := hlts id hid
    exact ((l2 id _ _ (List.getElem?_eq_getElem hlt1) (List.getElem?_eq_getElem hlt2)).2.2.1 hid).2
  · intro i ch hch
    obtain ⟨g, last, e1, _, _⟩ := hi.gen i ch hch
    have hlt : i < gens'.length := by rw [l1]; exact (List.getElem?_eq_some_iff.mp e1).1
    obtain ⟨f1, f2, f3, l', f4, f5⟩ := l2 i _ _ e1 (List.getElem?_eq_getElem hlt)
    refine ⟨gens'[i].1, l', ?_, f4, f5⟩
    rw [List.getElem?_eq_getElem hlt]
    congr 1
    exact Prod.ext rfl f1

theorem BatchInv.order_bounds {st : Anytime G C K} {u : BSt} (hi : BatchInv Inv π chan m s q selfJoin b order needed st u) (hb : -1 ≤ b)
    (hs : m ≤ s.length) (hq : m ≤ q.length) (hself : selfJoin = true → q.length = s.length) :
    (∀ d ∈ order, d + m ≤ s.length ∧ -d + m ≤ q.length) ∧ order.Nodup := by
  have hord := hi.valid.order
  rw [hi.order] at hord
  constructor
  · intro d hd
    have hd := hord.mem_iff.mp hd
    unfold Anytime.diagonals at hd
    rw [hi.selfJoin, hi.rows, hi.cols, hi.buffer] at hd
    split at hd
    · rename_i h
      have := hself h
      rw [mem_pyRange] at hd
      omega
    · rw [mem_pyRange] at hd
      omega
  · rw [hord.nodup_iff]
    unfold Anytime.diagonals
    split <;> exact pyRange_nodup _ _

theorem diagEntries_length (m : Nat) (hm0 : 0 < m) (s q : List α) (hs : m ≤ s.length) (hq : m ≤ q.length) (d : Int) (h1 : d + m ≤ s.length)
    (h2 : -d + m ≤ q.length) :
    diagLength ((q.length + 1 - m : Nat) : Int) ((s.length + 1 - m : Nat) : Int) d = (diagEntries m q.length s.length d : Int) := by
  unfold diagLength diagEntries
  split <;> omega

/-- `calculate_diagonals`. -/
theorem batch_diagonals (H : ∀ i < chan.length, WinServes ops.gen m N M (RelD i) (RelC i) (Ok i) (Inv i)) (hrefl : ∀ i a b, RelD i a b (D i a b)) (hm0 : 0 < m)
    (hs : m ≤ s.length) (hq : m ≤ q.length)
    (hb : -1 ≤ b) (hself : selfJoin = true → q.length = s.length)
    (hok : ∀ (i ch : Nat), chan[i]? = some ch → ∀ (l : Option (Int × Bool)) (d : Int),
      (GSt.mk (s.map (π ch)) (q.map (π ch)) l).Valid m M (.diag d) → Ok i ⟨s.map (π ch), q.map (π ch), l⟩ (.diag d))
    (st : Anytime G C K) (u : BSt) (hi : BatchInv Inv π chan m s q selfJoin b order needed st u) (n : Nat) (ints : Nat → Bool) (p : PyNum)
    (hc : IsBatchCall m q.length s.length order u (.diagonals n) (.diagonals ints p))
    (hf : ∀ V, TableRel m chan.length (frameRel π chan RelD) s q V →
      ∃ cons', AllFed ops (fun ids => u.tableEvents m selfJoin b order q.length s.length ids V (.diagonals n)) st.base.cons cons') :
    ∃ V, TableRel m chan.length (frameRel π chan RelD) s q V ∧ ∃ st', st.calculateDiagonals ops needed ints p = .ok st' ∧
      AllFed ops (fun ids => u.tableEvents m selfJoin b order q.length s.length ids V (.diagonals n)) st.base.cons st'.base.cons ∧
      BatchInv Inv π chan m s q selfJoin b order needed st' (u.step (.diagonals n)) := by
  classical
  obtain ⟨hbd, hnd⟩ := hi.order_bounds hb hs hq hself
  obtain ⟨v, hv, hn1, hn2, hn3, hn4⟩ := hc
  have hlens : ∀ k, lens st (order.take k) = (valuesUpto m q.length s.length order k : Int) := by
    intro k
    unfold lens valuesUpto
    rw [hi.rows, hi.cols]
    push_cast
    rw [List.map_map]
    congr 1
    apply List.map_congr_left
    intro d hd
    have := hbd d (List.mem_of_mem_take hd)
    exact diagEntries_length m hm0 s q hs hq d this.1 this.2
  have htot : st.total = (valuesUpto m q.length s.length order order.length : Int) := by
    rw [hi.valid.total, hi.order, ← hlens, List.take_length]
  have hcalc : st.calculated = (valuesUpto m q.length s.length order u.next : Int) := by
    rw [hi.valid.calculated, hi.order, hi.next, hlens]
  set V : Nat := valuesUpto m q.length s.length order order.length with hV
  have hp : ratioToInt p st.total st.total = .ok ((min v.toNat V : Nat) : Int) := by rw [htot]; exact hv.ratio
  -- the number of values grows
  have hgrow : ∀ k < order.length, (valuesUpto m q.length s.length order k : Int) < V := by
    intro k hk
    have h1 : V = valuesUpto m q.length s.length order k + ((order.drop k).map (diagEntries m q.length s.length)).sum := by
      rw [hV]
      unfold valuesUpto
      rw [List.take_length, ← List.sum_append, ← List.map_append, List.take_append_drop]
    have h2 : 0 < ((order.drop k).map (diagEntries m q.length s.length)).sum := by
      rw [List.drop_eq_getElem_cons hk, List.map_cons, List.sum_cons]
      have := hbd order[k] (List.getElem_mem hk)
      unfold diagEntries
      omega
    omega
  have hsum : ∀ j, u.next + j ≤ order.length →
      st.calculated + (((st.order.drop st.next).map (diagLength st.base.numQuery st.base.numSeries)).take j).sum =
        (valuesUpto m q.length s.length order (u.next + j) : Int) := by
    intro j _
    rw [← hlens, List.take_add, lens_append, hlens, hcalc, hi.order, hi.next, ← List.map_take]
    rfl
  have hcount : diagCount ints ((min v.toNat V : Nat) : Int) ((st.order.drop st.next).map (diagLength st.base.numQuery st.base.numSeries)) st.calculated
      st.next = some (n - u.next) := by
    apply diagCount_eq
    · rw [List.length_map, List.length_drop, hi.order, hi.next]; omega
    · intro j hj
      rw [hsum j (by omega), hi.next]
      have h1 := hn3 (u.next + j) (by omega) (by omega)
      have h2 := hgrow (u.next + j) (by omega)
      exact ⟨by omega, h1.2⟩
    · rw [hsum (n - u.next) (by omega), hi.next, show u.next + (n - u.next) = n by omega]
      rintro ⟨h1, h2⟩
      rcases hn4 with rfl | h | h
      · omega
      · omega
      · rw [h] at h2; cases h2
  set xs := (order.take n).drop u.next with hxs
  have hxs' : (st.order.drop st.next).take (n - u.next) = xs := by
    rw [hxs, hi.order, hi.next, List.drop_take]
  have hsub : xs.Sublist order := (List.drop_sublist _ _).trans (List.take_sublist _ _)
  obtain ⟨R, gens', g1, hR, g2, g3⟩ := batch_gens hi ops.calcDiagonal (fun d => (diagLength st.base.numQuery st.base.numSeries d).toNat)
    (fun id row => ∀ d ∈ xs, (row d).length = diagEntries m q.length s.length d ∧
      ∀ k v, (row d)[k]? = some v → frameRel π chan RelD id (win m s (d.toNat + k)) (win m q ((-d).toNat + k)) v) xs (by
    intro i ch g last hch hin hinv hl
    have hlt : i < chan.length := (List.getElem?_eq_some_iff.mp hch).1
    have hchD : chan.getD i 0 = ch := by rw [List.getD_eq_getElem?_getD, hch]; rfl
    obtain ⟨g', row, c1, c1', c2⟩ := (H i hlt).gives_diags ⟨s.map (π ch), q.map (π ch), last⟩ (hok i ch hch last)
      (fun d => (diagLength st.base.numQuery st.base.numSeries d).toNat) xs (hsub.nodup hnd)
      (fun d hd => by
        have := hbd d (hsub.subset hd)
        simp only [hi.rows, hi.cols, diagEntries_length m hm0 s q hs hq d this.1 this.2, List.length_map, Int.toNat_natCast])
      (fun d hd => by
        have := hbd d (hsub.subset hd)
        exact ⟨by simpa using this.1, by simpa using this.2, by simpa using hs, by simpa using hq⟩) g hinv
    refine ⟨row, g', last, c1, fun d hd => ?_, c2, hl⟩
    obtain ⟨p1, p2⟩ := c1' d hd
    refine ⟨by simpa using p1, fun k v hv => ?_⟩
    have := p2 k v hv
    rw [win_map, win_map] at this
    unfold frameRel
    rw [hchD]
    exact this)
  set V : Table K := fun id r x =>
    if frameRel π chan RelD id (win m s x) (win m q r) (((R id ((x : Int) - r))[min r x]?).getD .nan) then ((R id ((x : Int) - r))[min r x]?).getD .nan
    else frameDist π chan D id (win m s x) (win m q r) with hVdef
  have hVnear : TableRel m chan.length (frameRel π chan RelD) s q V := by
    intro id _ r c _ _
    rw [hVdef]
    dsimp only
    split
    · assumption
    · exact hrefl _ _ _
  have hVrow : ∀ id ∈ needed, ∀ d ∈ xs, tableDiag V m q.length s.length id d = R id d := by
    intro id hid d hd
    obtain ⟨p1, p2⟩ := hR id hid d hd
    unfold tableDiag
    apply List.ext_getElem?
    intro k
    rw [List.getElem?_map]
    by_cases hk : k < diagEntries m q.length s.length d
    · have hk' : k < (R id d).length := by rw [p1]; exact hk
      have hval : (R id d)[k]? = some (R id d)[k] := List.getElem?_eq_getElem hk'
      rw [List.getElem?_range hk, hval, Option.map_some]
      congr 1
      rw [hVdef]
      dsimp only
      rw [show ((d.toNat + k : Nat) : Int) - ((-d).toNat + k : Nat) = d by omega, show min ((-d).toNat + k) (d.toNat + k) = k by omega, hval, Option.getD_some,
        if_pos (p2 k _ hval)]
    · rw [List.getElem?_eq_none (by simp; omega), List.getElem?_eq_none (by rw [p1]; omega)]
      rfl
  obtain ⟨cons', hf⟩ := hf V hVnear
  let st' : Anytime G C K := { st with base := { st.base with gens := gens', cons := cons' }
                                       calculated := st.calculated + lens st xs
                                       next := st.next + xs.length }
  have hdone : DiagsDone ops needed xs st st' := by
    refine ⟨?_, rfl⟩
    rw [DiagRounds, RoundsRel_iff _ _ _ _ _ _ (hsub.nodup hnd) _ _ hi.valid.covers ?_]
    · refine ⟨R, g1, ?_⟩
      refine hf.congr fun c hcm => ?_
      simp only [BSt.tableEvents, hi.selfJoin, diagEvs]
      have e : ∀ d ∈ xs, (c.2.map fun id => R id d) = c.2.map fun id => tableDiag V m q.length s.length id d := fun d hd =>
        List.map_congr_left fun id hid => by rw [hVrow id ((hi.valid.needed.mem id).mpr ⟨c, hcm, hid⟩) d hd]
      rw [← hxs]
      apply List.flatMap_congr
      intro d hd
      rw [e d hd]
    · intro id hid
      obtain ⟨c, c1, c2⟩ := (hi.valid.needed.mem id).mp hid
      rw [hi.genLen]; exact hi.ids c c1 id c2
  have hcall : st.calculateDiagonals ops needed ints p = .ok st' := by
    rw [calculateDiagonals_iff ops needed ints p _ st st' hi.valid hp]
    exact ⟨n - u.next, hcount, by rw [hxs']; exact hdone⟩
  refine ⟨V, hVnear, st', hcall, hf, g2, g3, (calculateDiagonals_valid ops needed ints p st st' hi.valid hcall).1, ?_, hi.selfJoin, hi.cols, hi.rows, hi.buffer,
    hi.order, ?_, hi.last, hi.colLe⟩
  · have hids := hdone.fields.2.2.2.2.2.2.2.1
    intro c hc' id hid
    have : c.2 ∈ st'.base.cons.map Prod.snd := List.mem_map.mpr ⟨c, hc', rfl⟩
    rw [hids] at this
    obtain ⟨c', h1, h2⟩ := List.mem_map.mp this
    exact hi.ids c' h1 id (by rw [h2]; exact hid)
  · show st.next + xs.length = max u.next n
    rw [hxs, hi.next, List.length_drop, List.length_take]
    omega

/-- `calculate_columns`. -/
theorem batch_columns (H : ∀ i < chan.length, WinServes ops.gen m N M (RelD i) (RelC i) (Ok i) (Inv i))
    (hrefl : ∀ i a b, RelC i a b (D i a b)) (hm0 : 0 < m) (hs : m ≤ s.length) (hq : m ≤ q.length)
    (hb : -1 ≤ b) (st : Anytime G C K) (u : BSt) (hi : BatchInv Inv π chan m s q selfJoin b order needed st u) (a c : Nat)
    (hok : a < c → ∀ (i ch : Nat), chan[i]? = some ch → ∀ (l : Option (Int × Bool)) (c : Nat), c + m ≤ s.length →
      (GSt.mk (s.map (π ch)) (q.map (π ch)) l).Safe (.column c) → Ok i ⟨s.map (π ch), q.map (π ch), l⟩ (.column c))
    (ints : Int → Bool) (start : Option PyNum) (upto : PyNum)
    (hc : IsBatchCall m q.length s.length order u (.columns a c) (.columns ints start upto))
    (hf : ∀ V, TableRel m chan.length (frameRel π chan RelC) s q V →
      ∃ cons', AllFed ops (fun ids => u.tableEvents m selfJoin b order q.length s.length ids V (.columns a c)) st.base.cons cons') :
    ∃ V, TableRel m chan.length (frameRel π chan RelC) s q V ∧ ∃ st', st.calculateColumns ops needed ints start upto = .ok st' ∧
      AllFed ops (fun ids => u.tableEvents m selfJoin b order q.length s.length ids V (.columns a c)) st.base.cons st'.base.cons ∧
      BatchInv Inv π chan m s q selfJoin b order needed st' (u.step (.columns a c)) := by
  classical
  obtain ⟨a0, b0, ha0, ha, hb0, hc1, hc2⟩ := hc
  set W : Nat := s.length + 1 - m with hW
  have hlast := hi.last
  have hcolLe := hi.colLe
  have hstart : ratioToInt (start.getD (.int (st.base.lastCol + 1))) st.base.numSeries st.base.numSeries = .ok (a : Int) := by
    rw [hi.cols, ha]
    rcases ha0 with ⟨rfl, rfl⟩ | ⟨p, rfl, hp⟩
    · show Except.ok (min (max 0 (st.base.lastCol + 1)) (W : Int)) = _
      congr 1; omega
    · exact hp.ratio
  have hupto : ratioToInt upto st.base.numSeries st.base.numSeries = .ok ((min b0.toNat W : Nat) : Int) := by rw [hi.cols]; exact hb0.ratio
  have hdone : doneBefore ints (((min b0.toNat W : Nat) : Int) - a).toNat a = c - a := by
    refine doneBefore_eq ints _ _ _ ?_ ?_ ?_
    · omega
    · intro i hi'
      have := hc1 (a + i) (by omega) (by omega)
      push_cast at this
      exact this
    · rcases hc2 with h | ⟨h1, h2, h3⟩
      · left; omega
      · right
        rw [show (a : Int) + ((c - a : Nat) : Int) = c by omega]
        exact h3
  have hcW : c ≤ W := by omega
  have hxs : ((List.range (c - a)).map (a + ·)).map (fun c : Nat => (c : Int)) = pyRange (a : Int) ((a : Int) + ((c - a : Nat) : Int)) := by
    unfold pyRange
    rw [List.map_map, show ((a : Int) + ((c - a : Nat) : Int) - a).toNat = c - a by omega]
    apply List.map_congr_left
    intro i _
    simp
  have hmem : ∀ x, x ∈ (List.range (c - a)).map (a + ·) ↔ a ≤ x ∧ x < c := by
    intro x
    rw [List.mem_map]
    constructor
    · rintro ⟨i, hi', rfl⟩; rw [List.mem_range] at hi'; omega
    · rintro ⟨h1, h2⟩; exact ⟨x - a, by rw [List.mem_range]; omega, by omega⟩
  obtain ⟨R, gens', g1, hR, g2, g3⟩ := batch_gens hi ops.calcColumn (fun _ => q.length + 1 - m)
    (fun id row => ∀ x : Nat, a ≤ x → x < c → (row x).length = q.length + 1 - m ∧
      ∀ r v, (row x)[r]? = some v → frameRel π chan RelC id (win m s x) (win m q r) v) (pyRange (a : Int) ((a : Int) + ((c - a : Nat) : Int))) (by
    intro i ch g last hch hin hinv hl
    have hlt : i < chan.length := (List.getElem?_eq_some_iff.mp hch).1
    have hchD : chan.getD i 0 = ch := by rw [List.getD_eq_getElem?_getD, hch]; rfl
    by_cases hac : a < c
    · obtain ⟨g', l', row, c1, c1', c2, c3⟩ := (H i hlt).gives_columns (s.map (π ch)) (q.map (π ch))
        (fun l x => (GSt.mk (s.map (π ch)) (q.map (π ch)) l).Safe (.column x)) (fun l x hx hsafe => hok hac i ch hch l x (by simpa using hx) hsafe)
        ((List.range (c - a)).map (a + ·)) (List.Nodup.map (by intro x y hxy; simpa using hxy) List.nodup_range)
        (List.pairwise_of_forall fun x y t e h => by cases h; exact .inl rfl)
        (by intro x hx; rw [hmem] at hx; rw [List.length_map]; omega) g last hinv
        (by intro x hx t e he; exact .inl (hl t e he))
      refine ⟨row, g', l', ?_, ?_, c2, ?_⟩
      · rw [← hxs]
        rw [List.length_map] at c1
        exact c1
      · intro x hx1 hx2
        obtain ⟨p1, p2⟩ := c1' x ((hmem x).mpr ⟨hx1, hx2⟩)
        refine ⟨by rw [p1, List.length_map], fun r v hv => ?_⟩
        have := p2 r v hv
        rw [win_map, win_map] at this
        unfold frameRel
        rw [hchD]
        exact this
      · intro t e he
        rcases c3 t e he with ⟨h, -⟩ | h'
        · exact h
        · exact hl t e h'
    · refine ⟨fun _ => [], g, last, ?_, fun x h1 h2 => by omega, hinv, hl⟩
      rw [← hxs, show c - a = 0 by omega]
      rfl)
  set V : Table K := fun id r x =>
    if frameRel π chan RelC id (win m s x) (win m q r) (((R id x)[r]?).getD .nan) then ((R id x)[r]?).getD .nan
    else frameDist π chan D id (win m s x) (win m q r) with hV
  have hVnear : TableRel m chan.length (frameRel π chan RelC) s q V := by
    intro id _ r c _ _
    rw [hV]
    dsimp only
    split
    · assumption
    · exact hrefl _ _ _
  obtain ⟨cons', hf⟩ := hf V hVnear
  have hfed : AllFed ops (fun ids => (pyRange (a : Int) ((a : Int) + ((c - a : Nat) : Int))).map fun x =>
      CEvent.column x (ids.map fun id => maskRow b x (R id x))) st.base.cons cons' := by
    refine hf.congr fun c' hcm => ?_
    simp only [BSt.tableEvents]
    rw [← hxs, List.map_map, List.map_map]
    apply List.map_congr_left
    intro i hi'
    rw [List.mem_range] at hi'
    simp only [Function.comp]
    congr 1
    apply List.map_congr_left
    intro id hid
    obtain ⟨p1, p2⟩ := hR id ((hi.valid.needed.mem id).mpr ⟨c', hcm, hid⟩) (a + i) (by omega) (by omega)
    unfold tableColumn maskRow
    apply List.ext_getElem?
    intro r
    rw [List.getElem?_mapIdx, List.getElem?_map]
    by_cases hr : r < q.length + 1 - m
    · have hr' : r < (R id ((a + i : Nat) : Int)).length := by rw [p1]; exact hr
      have hval : (R id ((a + i : Nat) : Int))[r]? = some (R id ((a + i : Nat) : Int))[r] := List.getElem?_eq_getElem hr'
      rw [List.getElem?_range hr, hval]
      simp only [Option.map_some]
      congr 1
      have : V id r (a + i) = (R id ((a + i : Nat) : Int))[r] := by
        rw [hV]
        dsimp only
        rw [hval, Option.getD_some, if_pos (p2 r _ hval)]
      rw [this]
    · rw [List.getElem?_eq_none (by simp; omega), List.getElem?_eq_none (by rw [p1]; omega)]
      rfl
  let last' : Int := if c - a = 0 then st.base.lastCol else max ((a : Int) + ((c - a : Nat) : Int) - 1) st.base.lastCol
  let st' : Anytime G C K := { st with base := { st.base with gens := gens', cons := cons', lastCol := last' } }
  have hcols : st.base.calculateColumns ops st.base.numSeries st.base.numQuery needed ints start upto = .ok st'.base := by
    refine (columns_iff ops st.base.numSeries st.base.numQuery hi.valid.rows hi.valid.cols st.base st'.base needed hi.valid.needed
      (fun c hc id hid => by rw [hi.genLen]; exact hi.ids c hc id hid) (by rw [hi.buffer]; exact hb) ints start upto (a : Int) _ (c - a) hstart hupto hdone).mpr
      ⟨R, ?_, ?_, rfl⟩
    · simp only [hi.rows, Int.toNat_natCast]
      exact g1
    · rw [hi.buffer]; exact hfed
  have hids : cons'.map Prod.snd = st.base.cons.map Prod.snd := hf.ids
  refine ⟨V, hVnear, st', ?_, hf, g2, g3, ?_, ?_, hi.selfJoin, hi.cols, hi.rows, hi.buffer, hi.order, hi.next, ?_, ?_⟩
  · unfold Anytime.calculateColumns
    simp only [hcols, bind, Except.bind, pure, Except.pure]
    rfl
  · exact ⟨needed_of_ids hids hi.valid.needed, hi.valid.order, hi.valid.next, hi.valid.calculated, hi.valid.total, hi.valid.pos, hi.valid.rows, hi.valid.cols⟩
  · intro x hx id hid
    have : x.2 ∈ cons'.map Prod.snd := List.mem_map.mpr ⟨x, hx, rfl⟩
    rw [hids] at this
    obtain ⟨c', h1, h2⟩ := List.mem_map.mp this
    exact hi.ids c' h1 id (by rw [h2]; exact hid)
  · show (if c - a = 0 then st.base.lastCol else max ((a : Int) + ((c - a : Nat) : Int) - 1) st.base.lastCol) + 1 =
      (((if a < c then max u.col c else u.col : Nat)) : Int)
    split <;> split <;> omega
  · show (if a < c then max u.col c else u.col) ≤ s.length + 1 - m
    split <;> omega

theorem batch_run (H : ∀ i < chan.length, WinServes ops.gen m N M (RelD i) (RelC i) (Ok i) (Inv i)) 
    (hreflD : ∀ i a b, RelD i a b (D i a b)) (hreflC : ∀ i a b, RelC i a b (D i a b))
    (hm0 : 0 < m) (hs : m ≤ s.length) (hq : m ≤ q.length)
    (hb : -1 ≤ b) (hself : selfJoin = true → q.length = s.length)
    (hokd : ∀ (i ch : Nat), chan[i]? = some ch → ∀ (l : Option (Int × Bool)) (d : Int),
      (GSt.mk (s.map (π ch)) (q.map (π ch)) l).Valid m M (.diag d) → Ok i ⟨s.map (π ch), q.map (π ch), l⟩ (.diag d))
    (us : List BOp)
    (hokc : (∃ a c, a < c ∧ .columns a c ∈ us) → ∀ (i ch : Nat), chan[i]? = some ch → ∀ (l : Option (Int × Bool)) (c : Nat), c + m ≤ s.length →
      (GSt.mk (s.map (π ch)) (q.map (π ch)) l).Safe (.column c) → Ok i ⟨s.map (π ch), q.map (π ch), l⟩ (.column c)) :
    ∀ (os : List Anytime.Op) (st : Anytime G C K) (u : BSt),
      BatchInv Inv π chan m s q selfJoin b order needed st u → AreBatchCalls m q.length s.length order u us os →
      (∀ vs : List (BOp × Table K), vs.map Prod.fst = us → (∀ x ∈ vs, OpTable m chan.length (frameRel π chan RelD) (frameRel π chan RelC) s q x) →
        ∃ cons', AllFed ops (fun ids => BSt.allTableEvents m selfJoin b order q.length s.length ids u vs) st.base.cons cons') →
      ∃ vs : List (BOp × Table K), vs.map Prod.fst = us ∧ (∀ x ∈ vs, OpTable m chan.length (frameRel π chan RelD) (frameRel π chan RelC) s q x) ∧
        ∃ st', Anytime.run ops needed os st = .ok st' ∧
          AllFed ops (fun ids => BSt.allTableEvents m selfJoin b order q.length s.length ids u vs) st.base.cons st'.base.cons := by
  have hexact : ∀ x : BOp, OpTable m chan.length (frameRel π chan RelD) (frameRel π chan RelC) s q
      (x, fun id r c => frameDist π chan D id (win m s c) (win m q r)) := by
    intro x
    cases x
    · exact fun _ _ _ _ _ _ => hreflD _ _ _
    · exact fun _ _ _ _ _ _ => hreflC _ _ _
  induction us with
  | nil =>
    intro os st u hi hc hf
    cases os with
    | nil => exact ⟨[], rfl, by simp, st, rfl, AllFed.refl_nil _ _⟩
    | cons o os => exact hc.elim
  | cons x us ih =>
    intro os st u hi hc hf
    cases os with
    | nil => exact hc.elim
    | cons o os =>
      obtain ⟨h1, h2⟩ := hc
      have hfirst : ∀ V, OpTable m chan.length (frameRel π chan RelD) (frameRel π chan RelC) s q (x, V) →
          ∃ cons', AllFed ops (fun ids => u.tableEvents m selfJoin b order q.length s.length ids V x) st.base.cons cons' := by
        intro V hV
        obtain ⟨c2, hf2⟩ := hf ((x, V) :: us.map fun y => (y, fun id r c => frameDist π chan D id (win m s c) (win m q r)))
          (by simp [List.map_map, Function.comp_def]) (by
            intro y hy
            rcases List.mem_cons.mp hy with rfl | hy
            · exact hV
            · obtain ⟨z, -, rfl⟩ := List.mem_map.mp hy
              exact hexact z)
        obtain ⟨c1, hf1, -⟩ := AllFed.split (e1 := fun ids => u.tableEvents m selfJoin b order q.length s.length ids V x)
          (e2 := fun ids => BSt.allTableEvents m selfJoin b order q.length s.length ids (u.step x)
            (us.map fun y => (y, fun id r c => frameDist π chan D id (win m s c) (win m q r)))) hf2
        exact ⟨c1, hf1⟩
      obtain ⟨V, hV, st1, e1, e2, e3⟩ : ∃ V, OpTable m chan.length (frameRel π chan RelD) (frameRel π chan RelC) s q (x, V) ∧ ∃ st1, Anytime.step ops needed st o = .ok st1 ∧
          AllFed ops (fun ids => u.tableEvents m selfJoin b order q.length s.length ids V x) st.base.cons st1.base.cons ∧
          BatchInv Inv π chan m s q selfJoin b order needed st1 (u.step x) := by
        cases x with
        | diagonals n =>
          cases o with
          | diagonals ints p =>
            exact batch_diagonals H hreflD hm0 hs hq hb hself hokd st u hi n ints p h1 hfirst
          | columns ints start upto => exact h1.elim
        | columns a c =>
          cases o with
          | diagonals ints p => exact h1.elim
          | columns ints start upto =>
            exact batch_columns H hreflC hm0 hs hq hb st u hi a c (fun h => hokc ⟨a, c, h, by simp⟩) ints start upto h1 hfirst
      obtain ⟨vs, q1, q2, st', e4, e5⟩ := ih (fun ⟨a, c, h, hm⟩ => hokc ⟨a, c, h, by simp [hm]⟩) os st1 (u.step x) e3 h2 (by
        intro vs q1 q2
        obtain ⟨c2, hf2⟩ := hf ((x, V) :: vs) (by simp [q1]) (by
          intro y hy
          rcases List.mem_cons.mp hy with rfl | hy
          · exact hV
          · exact q2 y hy)
        obtain ⟨c1, hf1, hf2⟩ := AllFed.split (e1 := fun ids => u.tableEvents m selfJoin b order q.length s.length ids V x)
          (e2 := fun ids => BSt.allTableEvents m selfJoin b order q.length s.length ids (u.step x) vs) hf2
        rw [hf1.unique e2] at hf2
        exact ⟨c2, hf2⟩)
      refine ⟨(x, V) :: vs, by simp [q1], ?_, st', ?_, AllFed.trans e2 e5⟩
      · intro y hy
        rcases List.mem_cons.mp hy with rfl | hy
        · exact hV
        · exact q2 y hy
      · rw [Anytime.run, e1]
        exact e4

/-- With the distances themselves in the tables the events are those of `BSt.allEvents`. -/
theorem batchEventsOf_exact (ids : List Nat) (n : Nat) (hids : ∀ id ∈ ids, id < n) (E : Nat → List α → List α → Fl K) (hs : m ≤ s.length) :
    ∀ (vs : List (BOp × Table K)) (u : BSt), (∀ a c, .columns a c ∈ vs.map Prod.fst → a < c → c + m ≤ s.length + 1) →
      (∀ x ∈ vs, NearTable m n (fun _ => Eq) E s q x.2) →
      BSt.allEventsOf m selfJoin b order E s q ids u vs = BSt.allEvents m selfJoin b order E s q ids u (vs.map Prod.fst) := by
  intro vs
  induction vs with
  | nil => intro u _ _; rfl
  | cons x vs ih =>
    intro u hv hn
    obtain ⟨op, V⟩ := x
    rw [List.map_cons, BSt.allEventsOf, BSt.allEvents, ih (u.step op) (fun a c h => hv a c (by simp [h])) (fun x hx => hn x (by simp [hx]))]
    congr 1
    cases op with
    | diagonals k => rfl
    | columns a c =>
      have hac := hv a c (by simp)
      have hV := hn (.columns a c, V) (by simp)
      simp only [BSt.eventsOf, BSt.events]
      apply List.map_congr_left
      intro i hi
      rw [List.mem_range] at hi
      congr 1
      apply List.map_congr_left
      intro id hid
      unfold tableColumn
      apply List.map_congr_left
      intro r hr
      rw [List.mem_range] at hr
      unfold pairValue
      refine if_congr Iff.rfl rfl ?_
      exact (hV id (hids id hid) r (a + i) (by omega) (by omega)).symm

/-- Calls do not reach beyond the last column. -/
theorem AreBatchCalls.columns_fit {nq ns : Nat} {us : List BOp} : ∀ {os : List Anytime.Op} {u : BSt}, AreBatchCalls m nq ns order u us os →
    m ≤ ns → ∀ a c, .columns a c ∈ us → a < c → c + m ≤ ns + 1 := by
  induction us with
  | nil => intro os u _ _ a c h; simp at h
  | cons x us ih =>
    intro os u hc hm a c h hac
    cases os with
    | nil => exact hc.elim
    | cons o os =>
      obtain ⟨h1, h2⟩ := hc
      rcases List.mem_cons.mp h with rfl | h
      · cases o with
        | diagonals ints p => exact h1.elim
        | columns ints start upto =>
          obtain ⟨a0, b0, ha0, ha, hb0, hc1, hc2⟩ := h1
          omega
      · exact ih h2 hm a c h hac

end
end Verif
