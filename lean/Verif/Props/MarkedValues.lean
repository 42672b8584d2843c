import Verif.Props.FilteredFeed

/-!
# C108: the values of marked points do not matter
-/

namespace Verif
open Spec
variable {C : Type}

/-- A generator is not to see a difference between two values of its channel: the same value, or, for a filter, both marked. -/
def FKind.Alike : FKind → Fl ℝ → Fl ℝ → Prop
  | .plain _, x, y => x = y
  | .filtered p _ _, x, y => x = y ∨ p x = true ∧ p y = true

/-- Arrays of the same shape, with no difference that a generator is to see. -/
structure RowsAlike (kinds : List (FKind × Nat)) (a b : List (List (Fl ℝ))) : Prop where
  rows : a.length = b.length
  cols : ∀ (i : Nat) (x y : List (Fl ℝ)), a[i]? = some x → b[i]? = some y → x.length = y.length
  same : ∀ k ∈ kinds, ∀ x y : List (Fl ℝ), a[k.2]? = some x → b[k.2]? = some y → ∀ (j : Nat) (u v : Fl ℝ), x[j]? = some u → y[j]? = some v → k.1.Alike u v

/-- The same for the arguments of `append_series` and `append_query`. -/
def ArraysAlike (kinds : List (FKind × Nat)) : NDArray ℝ → NDArray ℝ → Prop
  | .d1 v, .d1 w => RowsAlike kinds (v.map fun x => [x]) (w.map fun x => [x])
  | .d2 a c, .d2 b c' => c = c' ∧ RowsAlike kinds a b
  | .higher, .higher => True
  | _, _ => False

/-- The same call with data alike. -/
def CallsAlike (kinds : List (FKind × Nat)) : Streaming.Op ℝ → Streaming.Op ℝ → Prop
  | .series v, .series w => ArraysAlike kinds v w
  | .query v, .query w => ArraysAlike kinds v w
  | .columns ints n, .columns ints' n' => ints = ints' ∧ n = n'
  | _, _ => False

/-! ### Generators -/

theorem alike_zeroed {p : Fl ℝ → Bool} {scale : ℚ} {k : GenKind} {a b : List (Fl ℝ)} (h : List.Forall₂ (FKind.filtered p scale k).Alike a b) :
    a.map p = b.map p ∧ Filter.zeroed a (a.map p) = Filter.zeroed b (b.map p) := by
  unfold Filter.zeroed
  induction h with
  | nil => exact ⟨rfl, rfl⟩
  | @cons x y a b h hs ih =>
    have hp : p x = p y := by rcases h with rfl | ⟨h1, h2⟩; rfl; rw [h1, h2]
    refine ⟨by rw [List.map_cons, List.map_cons, ih.1, hp], ?_⟩
    rw [List.map_cons, List.map_cons, List.zipWith_cons_cons, List.zipWith_cons_cons, ih.2, hp]
    rcases h with rfl | ⟨h1, h2⟩
    · rfl
    · rw [h2]; rfl

theorem alike_plain {k : GenKind} {a b : List (Fl ℝ)} (h : List.Forall₂ (FKind.plain k).Alike a b) : a = b := by
  have : List.Forall₂ Eq a b := h
  exact List.forall₂_eq_eq_eq ▸ this

theorem alike_correct {p : Fl ℝ → Bool} {scale : ℚ} {k : GenKind} {a b : List (Fl ℝ)} (h : List.Forall₂ (FKind.filtered p scale k).Alike a b) (m : Nat) :
    Filter.correctData a m (fun l _ => l.map p) = Filter.correctData b m (fun l _ => l.map p) := by
  obtain ⟨h1, h2⟩ := alike_zeroed h
  unfold Filter.correctData Filter.applyValidation
  simp only [List.length_map, ne_eq, not_true_eq_false, if_false, bind, Except.bind]
  rw [h2, h1]

/-- `prepare` gives the same bound generator. -/
theorem FKind.prepare_alike (memE : Nat → List (Fl ℝ)) (memZ : ZN.Mem) (k : FKind) (m : Int) {s s' : List (Fl ℝ)} {q q' : Option (List (Fl ℝ))}
    (hs : List.Forall₂ k.Alike s s') (hq : Option.Rel (List.Forall₂ k.Alike) q q') : k.prepare memE memZ m s q = k.prepare memE memZ m s' q' := by
  cases k with
  | plain k =>
    rw [alike_plain hs]
    cases hq with
    | none => rfl
    | some hq => rw [alike_plain hq]
  | filtered p scale k =>
    unfold FKind.prepare Filter.prepare
    dsimp only
    rw [alike_correct hs]
    cases hq with
    | none =>
      unfold Filter.prepareQuery
      rw [hs.length_eq]
    | some hq =>
      unfold Filter.prepareQuery
      dsimp only
      rw [alike_correct hq, hq.length_eq]

/-- A bound streaming generator that came from the generator object. -/
def FKind.Made : FKind → FGen → Prop
  | .plain _, .inl _ => True
  | .filtered p _ _, .inr (.inr g) => g.1 = p
  | _, _ => False

theorem FKind.streaming_made (memE : Nat → List (Fl ℝ)) (memZ : ZN.Mem) (memB : Nat → List Bool) (k : FKind) (m n : Int) (q : Option Int) (g : FGen)
    (h : k.streaming memE memZ memB m n q = .ok g) : k.Made g := by
  cases k with
  | plain k =>
    unfold FKind.streaming at h
    dsimp only at h
    cases e : k.streaming memE memZ m n q with
    | error e' => rw [e] at h; cases h
    | ok g' => rw [e] at h; cases h; trivial
  | filtered p scale k =>
    unfold FKind.streaming at h
    dsimp only at h
    revert h
    generalize Filter.prepareStreaming _ _ _ _ _ _ = r
    intro h
    cases r with
    | error e' => cases h
    | ok g' => cases h; rfl

/-- Every call leaves the object one of the same generator. -/
theorem FKind.made_call (memE : Nat → List (Fl ℝ)) (memZ : ZN.Mem) (k : FKind) (g : FGen) (h : k.Made g) :
    (∀ c r, (FKind.ops memE memZ).calcColumn g c = .ok r → k.Made r.1) ∧ (∀ d r, (FKind.ops memE memZ).calcDiagonal g d = .ok r → k.Made r.1) ∧
    (∀ v r, (FKind.ops memE memZ).appendSeries g v = .ok r → k.Made r) ∧ (∀ v r, (FKind.ops memE memZ).appendQuery g v = .ok r → k.Made r) := by
  have key : ∀ {A B : Type} (x : Except PyErr A) (f : A → B) (r : B), x.map f = .ok r → ∃ a, x = .ok a ∧ r = f a := fun x f r h => by
    cases x with
    | error e => cases h
    | ok a => cases h; exact ⟨a, rfl, rfl⟩
  rcases g with g | g | g
  · cases k with
    | filtered p scale k => exact h.elim
    | plain k =>
      refine ⟨?_, ?_, ?_, ?_⟩ <;> intro x r hr <;> obtain ⟨a, -, rfl⟩ := key _ _ _ hr <;> trivial
  · cases k <;> exact h.elim
  · cases k with
    | plain k => exact h.elim
    | filtered p scale k =>
      have h : g.1 = p := h
      refine ⟨?_, ?_, ?_, ?_⟩ <;> intro x r hr <;> obtain ⟨a, ha, rfl⟩ := key _ _ _ hr <;> obtain ⟨a', ha', rfl⟩ := key _ _ _ ha <;>
        obtain ⟨a'', -, rfl⟩ := key _ _ _ ha' <;> exact h

/-- Appending values that are alike gives the same bound generator. -/
theorem FKind.append_alike (memE : Nat → List (Fl ℝ)) (memZ : ZN.Mem) (k : FKind) (g : FGen) (h : k.Made g) {v w : List (Fl ℝ)} (hv : List.Forall₂ k.Alike v w) :
    (FKind.ops memE memZ).appendSeries g v = (FKind.ops memE memZ).appendSeries g w ∧ (FKind.ops memE memZ).appendQuery g v = (FKind.ops memE memZ).appendQuery g w := by
  rcases g with g | g | g
  · cases k with
    | filtered p scale k => exact h.elim
    | plain k => rw [alike_plain hv]; exact ⟨rfl, rfl⟩
  · cases k <;> exact h.elim
  · cases k with
    | plain k => exact h.elim
    | filtered p scale k =>
      obtain rfl : g.1 = p := h
      obtain ⟨h1, h2⟩ := alike_zeroed hv
      have hval : ∀ m, Filter.applyValidation v m (fun l _ => l.map g.1) = .ok (v.map g.1) ∧ Filter.applyValidation w m (fun l _ => l.map g.1) = .ok (v.map g.1) := fun m => by
        unfold Filter.applyValidation
        simp [h1, hv.length_eq]
      constructor
      · show Except.map _ (Except.map _ (Except.map _ _)) = Except.map _ (Except.map _ (Except.map _ _))
        congr 3
        unfold Filter.Streaming.appendSeries
        simp only [hval, bind, Except.bind]
        rw [h2, h1]
      · show Except.map _ (Except.map _ (Except.map _ _)) = Except.map _ (Except.map _ (Except.map _ _))
        congr 3
        unfold Filter.Streaming.appendQuery
        simp only [hval, bind, Except.bind]
        rw [h2, h1]

/-! ### Batch calculations -/

section
variable {G K : Type}

/-- The data held by a calculator replaced. -/
def Anytime.withData (a b : List (List (Fl K))) (st : Anytime G C K) : Anytime G C K := { st with series := a, query := b }

variable (ops : Ops G C K) (needed : List Nat) (a b : List (List (Fl K)))

theorem withData_diagonal (d : Int) (st : Anytime G C K) :
    (st.withData a b).diagonalStep ops needed d = (st.diagonalStep ops needed d).map (·.withData a b) := by
  unfold Anytime.diagonalStep
  simp only [Anytime.withData, bind, Except.bind]
  split
  · rfl
  · split
    · rfl
    · rfl

theorem withData_loop (ints : Nat → Bool) (n : Int) : ∀ (l : List Int) (st : Anytime G C K),
    Anytime.diagonalLoop ops needed ints n l (st.withData a b) = (Anytime.diagonalLoop ops needed ints n l st).map (·.withData a b)
  | [], st => by
    unfold Anytime.diagonalLoop
    by_cases h : st.calculated < n ∧ ints st.next = false
    · have h' : (st.withData a b).calculated < n ∧ ints (st.withData a b).next = false := h
      rw [if_pos h, if_pos h']; rfl
    · have h' : ¬ ((st.withData a b).calculated < n ∧ ints (st.withData a b).next = false) := h
      rw [if_neg h, if_neg h']; rfl
  | d :: l, st => by
    unfold Anytime.diagonalLoop
    by_cases h : st.calculated < n ∧ ints st.next = false
    · have h' : (st.withData a b).calculated < n ∧ ints (st.withData a b).next = false := h
      rw [if_pos h, if_pos h', withData_diagonal]
      cases e : st.diagonalStep ops needed d with
      | error e' => rfl
      | ok st' => exact withData_loop ints n l st'
    · have h' : ¬ ((st.withData a b).calculated < n ∧ ints (st.withData a b).next = false) := h
      rw [if_neg h, if_neg h']
      rfl

theorem withData_step (op : Anytime.Op) (st : Anytime G C K) : (st.withData a b).step ops needed op = (st.step ops needed op).map (·.withData a b) := by
  cases op with
  | diagonals ints p =>
    show (st.withData a b).calculateDiagonals ops needed ints p = (st.calculateDiagonals ops needed ints p).map _
    unfold Anytime.calculateDiagonals
    simp only [bind, Except.bind]
    have e1 : (st.withData a b).base = st.base := rfl
    have e2 : (st.withData a b).total = st.total := rfl
    have e3 : (st.withData a b).order = st.order := rfl
    have e4 : (st.withData a b).next = st.next := rfl
    rw [e1, e2, e3, e4]
    cases npFullNan K st.base.gens.length (min st.base.numQuery st.base.numSeries) with
    | error e => rfl
    | ok _ =>
      dsimp only
      cases ratioToInt p st.total st.total with
      | error e => rfl
      | ok n => exact withData_loop ops needed a b ints n _ st
  | columns ints start upto =>
    show (st.withData a b).calculateColumns ops needed ints start upto = (st.calculateColumns ops needed ints start upto).map _
    unfold Anytime.calculateColumns
    simp only [Anytime.withData, bind, Except.bind]
    split <;> rfl

theorem withData_run : ∀ (os : List Anytime.Op) (st : Anytime G C K), Anytime.run ops needed os (st.withData a b) = (Anytime.run ops needed os st).map (·.withData a b)
  | [], _ => rfl
  | o :: os, st => by
    unfold Anytime.run
    rw [withData_step]
    cases e : st.step ops needed o with
    | error e' => rfl
    | ok st' => exact withData_run os st'

theorem withData_consumers : ∀ (cs : List (C × List Nat)) (st : Anytime G C K),
    Anytime.addAllConsumers ops cs (st.withData a b) = (Anytime.addAllConsumers ops cs st).map (·.withData a b)
  | [], _ => rfl
  | c :: cs, st => by
    have h : (st.withData a b).addConsumer ops c.2 c.1 = (st.addConsumer ops c.2 c.1).map (·.withData a b) := by
      unfold Anytime.addConsumer
      simp only [Anytime.withData, bind, Except.bind]
      split <;> rfl
    unfold Anytime.addAllConsumers
    rw [h]
    cases e : st.addConsumer ops c.2 c.1 with
    | error e' => rfl
    | ok st' => exact withData_consumers cs st'
end

theorem RowsAlike.get {kinds : List (FKind × Nat)} {a b : List (List (Fl ℝ))} (h : RowsAlike kinds a b) {k : FKind × Nat} (hk : k ∈ kinds) :
    (∃ x y, pyGet a (k.2 : Int) = .ok x ∧ pyGet b (k.2 : Int) = .ok y ∧ List.Forall₂ k.1.Alike x y) ∨
      ∃ e, pyGet a (k.2 : Int) = .error e ∧ pyGet b (k.2 : Int) = .error e := by
  by_cases hi : k.2 < a.length
  · have hi' := hi
    rw [h.rows] at hi'
    refine .inl ⟨a[k.2], b[k.2], (pyGet_nat_ok _ _ _).mpr (List.getElem?_eq_getElem hi), (pyGet_nat_ok _ _ _).mpr (List.getElem?_eq_getElem hi'), ?_⟩
    have e1 := List.getElem?_eq_getElem hi
    have e2 := List.getElem?_eq_getElem hi'
    refine List.forall₂_iff_get.mpr ⟨h.cols _ _ _ e1 e2, fun j h1 h2 => h.same k hk _ _ e1 e2 j _ _ (List.getElem?_eq_getElem h1) (List.getElem?_eq_getElem h2)⟩
  · refine .inr ⟨.indexError, ?_, ?_⟩
    · rw [pyGet_nat, List.getElem?_eq_none (by omega)]
    · rw [pyGet_nat, List.getElem?_eq_none (by have := h.rows; omega)]

theorem RowsAlike.npCols {kinds : List (FKind × Nat)} {a b : List (List (Fl ℝ))} (h : RowsAlike kinds a b) : Anytime.npCols a = Anytime.npCols b := by
  have h1 := h.rows
  have h2 := h.cols 0
  unfold Anytime.npCols
  cases a with
  | nil => cases b with
    | nil => rfl
    | cons y b => simp at h1
  | cons x a => cases b with
    | nil => simp at h1
    | cons y b => exact congrArg Int.ofNat (h2 x y rfl rfl)

variable {kinds : List (FKind × Nat)} {series series' : List (List (Fl ℝ))} {query query' : Option (List (List (Fl ℝ)))}

theorem alike_init (shuffle : List Int → List Int) (m : Int) (buffer : Option Int) (hs : RowsAlike kinds series series') (hq : Option.Rel (RowsAlike kinds) query query') :
    (Anytime.init shuffle m series' query' buffer : Except PyErr (Anytime FGen C ℝ)) =
      (Anytime.init shuffle m series query buffer).map (·.withData series' (query'.getD series')) ∧
    ∀ st : Anytime FGen C ℝ, Anytime.init shuffle m series query buffer = .ok st → st.series = series ∧ st.query = query.getD series ∧ (st.base.selfJoin = query.isNone) := by
  have hq' : RowsAlike kinds (query.getD series) (query'.getD series') := by cases hq with
    | none => exact hs
    | some h => exact h
  have hn : query'.isNone = query.isNone := by cases hq <;> rfl
  unfold Anytime.init
  simp only [hn, ← hs.npCols, ← hq'.npCols, ← hs.rows, ← hq'.rows]
  by_cases h : series.length = (query.getD series).length
  · simp only [ne_eq, h, not_true_eq_false, if_false, bind, Except.bind]
    cases e : (Calc.init query.isNone m (Anytime.npCols series - m + 1) (Anytime.npCols (query.getD series) - m + 1) (query.getD series).length buffer : Except PyErr (Calc FGen C)) with
    | error e' => exact ⟨rfl, by simp⟩
    | ok base =>
      refine ⟨rfl, fun st hst => ?_⟩
      cases hst
      refine ⟨rfl, rfl, ?_⟩
      unfold Calc.init at e
      cases hj : query.isNone with
      | true =>
        simp only [hj, if_true] at e
        split at e
        · cases e; rfl
        · cases e
      | false =>
        simp only [hj, Bool.false_eq_true, if_false] at e
        cases e; rfl
  · simp only [ne_eq, h, not_false_eq_true, if_true]
    exact ⟨rfl, by simp⟩

theorem alike_generators (memE : Nat → List (Fl ℝ)) (memZ : ZN.Mem) (hs : RowsAlike kinds series series') (hq : Option.Rel (RowsAlike kinds) query query') :
    ∀ (ks : List (FKind × Nat)) (st : Anytime FGen C ℝ), (∀ k ∈ ks, k ∈ kinds) → st.series = series → st.query = query.getD series → st.base.selfJoin = query.isNone →
      Anytime.addGenerators (ks.map fun k => (k.1.prepare memE memZ, k.2)) (st.withData series' (query'.getD series')) =
        (Anytime.addGenerators (ks.map fun k => (k.1.prepare memE memZ, k.2)) st).map (·.withData series' (query'.getD series'))
  | [], _, _, _, _, _ => rfl
  | k :: ks, st, hk, h1, h2, h3 => by
    have key : (st.withData series' (query'.getD series')).addGenerator (k.1.prepare memE memZ) (k.2 : Int) =
        (st.addGenerator (k.1.prepare memE memZ) (k.2 : Int)).map (·.withData series' (query'.getD series')) ∧
        ∀ st', st.addGenerator (k.1.prepare memE memZ) (k.2 : Int) = .ok st' → st'.series = series ∧ st'.query = query.getD series ∧ st'.base.selfJoin = query.isNone := by
      unfold Anytime.addGenerator
      simp only [Anytime.withData, h1, h2, h3, bind, Except.bind]
      by_cases hd : (k.2 : Int) < 0 ∨ (k.2 : Int) ≥ st.base.nDim
      · simp only [hd, if_true]
        exact ⟨rfl, by simp⟩
      · simp only [hd, if_false]
        rcases hs.get (hk k (by simp)) with ⟨x, y, e1, e2, e3⟩ | ⟨e, e1, e2⟩
        · simp only [e1, e2]
          cases hq with
          | none =>
            simp only [Option.isNone_none, if_true, FKind.prepare_alike memE memZ k.1 st.base.m e3 .none]
            cases k.1.prepare memE memZ st.base.m y none with
            | error e => exact ⟨rfl, by simp⟩
            | ok g => exact ⟨rfl, fun st' h => by cases h; exact ⟨rfl, rfl, rfl⟩⟩
          | @some q q' hq =>
            simp only [Option.isNone_some, Bool.false_eq_true, if_false, Option.getD_some]
            rcases hq.get (hk k (by simp)) with ⟨x', y', e1', e2', e3'⟩ | ⟨e, e1', e2'⟩
            · simp only [e1', e2', FKind.prepare_alike memE memZ k.1 st.base.m e3 (.some e3')]
              cases k.1.prepare memE memZ st.base.m y (some y') with
              | error e => exact ⟨rfl, by simp⟩
              | ok g => exact ⟨rfl, fun st' h => by cases h; exact ⟨rfl, rfl, rfl⟩⟩
            · simp only [e1', e2']
              exact ⟨rfl, by simp⟩
        · simp only [e1, e2]
          exact ⟨rfl, by simp⟩
    rw [List.map_cons]
    unfold Anytime.addGenerators
    rw [key.1]
    cases e : st.addGenerator (k.1.prepare memE memZ) (k.2 : Int) with
    | error e' => rfl
    | ok st' =>
      obtain ⟨a1, a2, a3⟩ := key.2 st' e
      exact alike_generators memE memZ hs hq ks st' (fun k h => hk k (List.mem_cons_of_mem _ h)) a1 a2 a3

/-- **C108, batch.** Two calculations with an `AnytimeCalculator` that differ only in the values of points that are marked by every filter on their channel (and of channels
without generator): whatever the consumers and the calls are, both return the same, or raise the same exception. -/
theorem C108_batch (memE : Nat → List (Fl ℝ)) (memZ : ZN.Mem) (ops : Ops FGen C ℝ) (shuffle : List Int → List Int) (kinds : List (FKind × Nat)) (consumers : List (C × List Nat))
    (needed : List Nat) (m : Int) (series series' : List (List (Fl ℝ))) (query query' : Option (List (List (Fl ℝ)))) (buffer : Option Int) (calls : List Anytime.Op)
    (hs : RowsAlike kinds series series') (hq : Option.Rel (RowsAlike kinds) query query') :
    batchAll ops shuffle (kinds.map fun k => (k.1.prepare memE memZ, k.2)) consumers needed m series' query' buffer calls =
      batchAll ops shuffle (kinds.map fun k => (k.1.prepare memE memZ, k.2)) consumers needed m series query buffer calls := by
  obtain ⟨h1, h2⟩ := alike_init (C := C) shuffle m buffer hs hq
  unfold batchAll
  rw [h1]
  cases e : (Anytime.init shuffle m series query buffer : Except PyErr (Anytime FGen C ℝ)) with
  | error e' => rfl
  | ok st =>
    obtain ⟨a1, a2, a3⟩ := h2 st e
    simp only [Except.map, bind, Except.bind]
    rw [alike_generators memE memZ hs hq kinds st (fun _ h => h) a1 a2 a3]
    cases Anytime.addGenerators (kinds.map fun k => (k.1.prepare memE memZ, k.2)) st with
    | error e' => rfl
    | ok st =>
      simp only [Except.map]
      rw [withData_consumers]
      cases Anytime.addAllConsumers ops consumers st with
      | error e' => rfl
      | ok st =>
        simp only [Except.map]
        rw [withData_run]
        cases Anytime.run ops needed calls st with
        | error e' => rfl
        | ok st => rfl

/-! ### Streaming calculations -/

/-- Every generator of the calculator came from one of the generator objects. -/
def GensMade (kinds : List (FKind × Nat)) (gens : List (FGen × Nat)) : Prop := ∀ g ∈ gens, ∃ k ∈ kinds, g.2 = k.2 ∧ k.1.Made g.1

section
variable {memE : Nat → List (Fl ℝ)} {memZ : ZN.Mem} {ops : Ops FGen C ℝ} (hops : ops.gen = FKind.ops memE memZ)

theorem GensMade.ask {ask : FGen → Except PyErr (FGen × List (Fl ℝ))} (hask : ∀ (k : FKind) g r, k.Made g → ask g = .ok r → k.Made r.1) (n : Nat) :
    ∀ (ids : List Nat) (gens : List (FGen × Nat)) (rows : List (List (Fl ℝ))) (r : List (FGen × Nat) × List (List (Fl ℝ))), GensMade kinds gens →
      Calc.genStep ask n ids gens rows = .ok r → GensMade kinds r.1
  | [], gens, rows, r, h, e => by cases e; exact h
  | id :: ids, gens, rows, r, h, e => by
    unfold Calc.genStep at e
    cases h1 : pyGet gens (id : Int) with
    | error x => rw [h1] at e; cases e
    | ok g =>
      simp only [h1, bind, Except.bind] at e
      cases h2 : ask g.1 with
      | error x => rw [h2] at e; cases e
      | ok a =>
        simp only [h2] at e
        cases h3 : npRow n a.2 with
        | error x => rw [h3] at e; cases e
        | ok row =>
          simp only [h3] at e
          cases h4 : pySet rows (id : Int) row with
          | error x => rw [h4] at e; cases e
          | ok rows' =>
            simp only [h4] at e
            refine GensMade.ask hask n ids _ _ r ?_ e
            intro y hy
            rcases List.mem_or_eq_of_mem_set hy with hy | rfl
            · exact h y hy
            · obtain ⟨k, k1, k2, k3⟩ := h g (List.mem_of_getElem? ((pyGet_nat_ok _ _ _).mp h1))
              exact ⟨k, k1, k2, hask k.1 _ _ k3 h2⟩

include hops in
theorem GensMade.columnStep (needed : List Nat) (maxRow : Nat) (column : Int) (s r : Calc FGen C × List (List (Fl ℝ))) (h : GensMade kinds s.1.gens)
    (e : Calc.columnStep ops needed maxRow column s = .ok r) : GensMade kinds r.1.gens := by
  have hcol : ops.calcColumn = (FKind.ops memE memZ).calcColumn := congrArg GenOps.calcColumn hops
  unfold Calc.columnStep at e
  simp only [bind, Except.bind] at e
  split at e
  · cases e
  · rename_i x hx
    have := GensMade.ask (fun k g r hk hr => (k.made_call memE memZ g hk).1 column r (by rw [← hcol]; exact hr)) maxRow needed _ _ x h hx
    split at e
    · cases e
    · cases e; exact this

include hops in
theorem GensMade.columnLoop (needed : List Nat) (maxRow : Nat) (ints : Int → Bool) : ∀ (n : Nat) (column : Int) (s r : Calc FGen C × List (List (Fl ℝ))),
    GensMade kinds s.1.gens → Calc.columnLoop ops needed maxRow ints n column s = .ok r → GensMade kinds r.1.gens
  | 0, _, s, r, h, e => by cases e; exact h
  | n + 1, column, s, r, h, e => by
    unfold Calc.columnLoop at e
    by_cases hi : ints column = true
    · rw [if_pos hi] at e; cases e; exact h
    · rw [if_neg hi] at e
      cases h1 : Calc.columnStep ops needed maxRow column s with
      | error x => rw [h1] at e; cases e
      | ok s' =>
        rw [h1] at e
        exact GensMade.columnLoop needed maxRow ints n (column + 1) s' r (GensMade.columnStep hops needed maxRow column s s' h h1) e

include hops in
theorem GensMade.columns (needed : List Nat) (ints : Int → Bool) (start : Option PyNum) (upto : PyNum) (st st' : Streaming FGen C) (h : GensMade kinds st.base.gens)
    (e : st.calculateColumns ops needed ints start upto = .ok st') : GensMade kinds st'.base.gens := by
  unfold Streaming.calculateColumns Calc.calculateColumns at e
  simp only [bind, Except.bind] at e
  split at e
  · cases e
  · rename_i base hb
    cases e
    split at hb
    · cases hb
    · split at hb
      · cases hb
      · split at hb
        · cases hb
        · split at hb
          · cases hb
          · rename_i x hx
            cases hb
            exact GensMade.columnLoop hops needed _ ints _ _ _ x h hx

theorem toRows_alike {v w : NDArray ℝ} (h : ArraysAlike kinds v w) (nDim : Nat) :
    (∃ a b n, Streaming.toRows nDim v = .ok (a, n) ∧ Streaming.toRows nDim w = .ok (b, n) ∧ RowsAlike kinds a b) ∨
      ∃ e, Streaming.toRows nDim v = .error e ∧ Streaming.toRows nDim w = .error e := by
  cases v with
  | d1 v =>
    cases w with
    | d1 w =>
      have h : RowsAlike kinds _ _ := h
      have hl : v.length = w.length := by simpa using h.rows
      unfold Streaming.toRows
      dsimp only
      by_cases hn : v.length = nDim
      · rw [if_pos hn, if_pos (by omega)]
        exact .inl ⟨_, _, _, rfl, rfl, h⟩
      · rw [if_neg hn, if_neg (by omega)]
        exact .inr ⟨_, rfl, rfl⟩
    | d2 => exact h.elim
    | higher => exact h.elim
  | d2 a c =>
    cases w with
    | d2 b c' =>
      obtain ⟨rfl, h⟩ : c = c' ∧ RowsAlike kinds a b := h
      have hl := h.rows
      unfold Streaming.toRows
      dsimp only
      by_cases hn : a.length = nDim
      · rw [if_neg (by omega), if_neg (by omega)]
        exact .inl ⟨_, _, _, rfl, rfl, h⟩
      · rw [if_pos hn, if_pos (by omega)]
        exact .inr ⟨_, rfl, rfl⟩
    | d1 => exact h.elim
    | higher => exact h.elim
  | higher =>
    cases w with
    | higher => exact .inr ⟨_, rfl, rfl⟩
    | d1 => exact h.elim
    | d2 => exact h.elim

theorem appendGens_alike {f : FGen → List (Fl ℝ) → Except PyErr FGen} (hf : ∀ (k : FKind) g v w, k.Made g → List.Forall₂ k.Alike v w → f g v = f g w)
    (hf' : ∀ (k : FKind) g v r, k.Made g → f g v = .ok r → k.Made r) {a b : List (List (Fl ℝ))} (hab : RowsAlike kinds a b) (gens : List (FGen × Nat)) (h : GensMade kinds gens) :
    Streaming.appendGens f a gens = Streaming.appendGens f b gens ∧ ∀ r, Streaming.appendGens f a gens = .ok r → GensMade kinds r := by
  constructor
  · unfold Streaming.appendGens
    induction gens with
    | nil => rfl
    | cons g gens ih =>
      rw [List.mapM_cons, List.mapM_cons, ih fun x hx => h x (List.mem_cons_of_mem _ hx)]
      obtain ⟨k, k1, k2, k3⟩ := h g (by simp)
      rcases hab.get k1 with ⟨x, y, e1, e2, e3⟩ | ⟨e, e1, e2⟩
      · rw [k2, e1, e2]
        simp only [bind, Except.bind, hf k.1 g.1 x y k3 e3]
      · rw [k2, e1, e2]
  · intro r hr
    unfold Streaming.appendGens at hr
    rw [mapM_ok_iff] at hr
    induction hr with
    | nil => exact fun _ h => by simp at h
    | @cons g g' gens r hg hs ih =>
      have ih := ih fun x hx => h x (List.mem_cons_of_mem _ hx)
      obtain ⟨k, k1, k2, k3⟩ := h g (by simp)
      intro z hz
      rcases List.mem_cons.mp hz with rfl | hz
      · rw [bind_ok_iff] at hg
        obtain ⟨v, -, hg⟩ := hg
        rw [bind_ok_iff] at hg
        obtain ⟨y, hy, hg⟩ := hg
        cases hg
        exact ⟨k, k1, k2, hf' k.1 _ _ _ k3 hy⟩
      · exact ih z hz

include hops in
theorem step_alike (needed : List Nat) (st : Streaming FGen C) (h : GensMade kinds st.base.gens) (o o' : Streaming.Op ℝ) (ho : CallsAlike kinds o o') :
    st.step ops needed o' = st.step ops needed o ∧ ∀ st', st.step ops needed o = .ok st' → GensMade kinds st'.base.gens := by
  have h1 : ops.appendSeries = (FKind.ops memE memZ).appendSeries := congrArg GenOps.appendSeries hops
  have h2 : ops.appendQuery = (FKind.ops memE memZ).appendQuery := congrArg GenOps.appendQuery hops
  cases o with
  | series v =>
    cases o' with
    | series w =>
      show st.appendSeries ops w = st.appendSeries ops v ∧ ∀ st', st.appendSeries ops v = .ok st' → _
      unfold Streaming.appendSeries
      rcases toRows_alike (show ArraysAlike kinds v w from ho) st.base.nDim with ⟨a, b, n, e1, e2, e3⟩ | ⟨e, e1, e2⟩
      · obtain ⟨i1, i2⟩ := appendGens_alike (f := ops.appendSeries) (fun k g v w hk hv => by rw [h1]; exact (k.append_alike memE memZ g hk hv).1)
          (fun k g v r hk hr => (k.made_call memE memZ g hk).2.2.1 v r (by rw [← h1]; exact hr)) e3 st.base.gens h
        simp only [e1, e2, bind, Except.bind, ← i1]
        refine ⟨trivial, fun st' hst => ?_⟩
        split at hst
        · cases hst
        · rename_i gens hg
          have := i2 gens hg
          split at hst
          · split at hst
            · cases hst
            · cases hst; exact this
          · cases hst; exact this
      · simp only [e1, e2, bind, Except.bind]
        exact ⟨trivial, fun _ h => by cases h⟩
    | query => exact ho.elim
    | columns => exact ho.elim
  | query v =>
    cases o' with
    | query w =>
      show st.appendQuery ops w = st.appendQuery ops v ∧ ∀ st', st.appendQuery ops v = .ok st' → _
      unfold Streaming.appendQuery
      by_cases hj : st.base.selfJoin = true
      · rw [if_pos hj, if_pos hj]
        exact ⟨rfl, fun _ h => by cases h⟩
      · rw [if_neg hj, if_neg hj]
        rcases toRows_alike (show ArraysAlike kinds v w from ho) st.base.nDim with ⟨a, b, n, e1, e2, e3⟩ | ⟨e, e1, e2⟩
        · obtain ⟨i1, i2⟩ := appendGens_alike (f := ops.appendQuery) (fun k g v w hk hv => by rw [h2]; exact (k.append_alike memE memZ g hk hv).2)
            (fun k g v r hk hr => (k.made_call memE memZ g hk).2.2.2 v r (by rw [← h2]; exact hr)) e3 st.base.gens h
          simp only [e1, e2, bind, Except.bind, ← i1]
          refine ⟨trivial, fun st' hst => ?_⟩
          split at hst
          · cases hst
          · rename_i gens hg
            have := i2 gens hg
            split at hst
            · split at hst
              · cases hst
              · cases hst; exact this
            · cases hst; exact this
        · simp only [e1, e2, bind, Except.bind]
          exact ⟨trivial, fun _ h => by cases h⟩
    | series => exact ho.elim
    | columns => exact ho.elim
  | columns ints n =>
    cases o' with
    | columns ints' n' =>
      obtain ⟨rfl, rfl⟩ : ints = ints' ∧ n = n' := ho
      exact ⟨rfl, fun st' hst => GensMade.columns hops needed ints none n st st' h hst⟩
    | series => exact ho.elim
    | query => exact ho.elim

include hops in
theorem run_alike (needed : List Nat) : ∀ (os os' : List (Streaming.Op ℝ)) (st : Streaming FGen C), List.Forall₂ (CallsAlike kinds) os os' → GensMade kinds st.base.gens →
    Streaming.run ops needed os' st = Streaming.run ops needed os st
  | _, _, _, .nil, _ => rfl
  | o :: os, o' :: os', st, .cons ho hos, h => by
    obtain ⟨h1, h2⟩ := step_alike hops needed st h o o' ho
    unfold Streaming.run
    rw [h1]
    cases e : st.step ops needed o with
    | error e' => rfl
    | ok st' => exact run_alike needed os os' st' hos (h2 st' e)
end

theorem generators_made (memE : Nat → List (Fl ℝ)) (memZ : ZN.Mem) (memB : Nat → List Bool) : ∀ (ks : List (FKind × Nat)) (st st' : Streaming FGen C), (∀ k ∈ ks, k ∈ kinds) →
    GensMade kinds st.base.gens → Streaming.addGenerators (ks.map fun k => (k.1.streaming memE memZ memB, k.2)) st = .ok st' → GensMade kinds st'.base.gens
  | [], st, st', _, h, e => by cases e; exact h
  | k :: ks, st, st', hk, h, e => by
    rw [List.map_cons] at e
    unfold Streaming.addGenerators at e
    cases h1 : st.addGenerator (k.1.streaming memE memZ memB) (k.2 : Int) with
    | error x => rw [h1] at e; cases e
    | ok s1 =>
      rw [h1] at e
      refine generators_made memE memZ memB ks s1 st' (fun k h => hk k (List.mem_cons_of_mem _ h)) ?_ e
      unfold Streaming.addGenerator at h1
      by_cases hd : (k.2 : Int) < 0 ∨ (k.2 : Int) ≥ st.base.nDim
      · rw [if_pos hd] at h1; cases h1
      · rw [if_neg hd] at h1
        simp only [bind, Except.bind] at h1
        split at h1
        · cases h1
        · rename_i g hg
          cases h1
          intro y hy
          rcases List.mem_append.mp hy with hy | hy
          · exact h y hy
          · rw [List.mem_singleton] at hy
            subst hy
            exact ⟨k, hk k (by simp), by simp, FKind.streaming_made memE memZ memB k.1 _ _ _ g hg⟩

theorem consumers_gens (ops : Ops FGen C ℝ) : ∀ (cs : List (C × List Nat)) (st st' : Streaming FGen C), Streaming.addConsumers ops cs st = .ok st' → st'.base.gens = st.base.gens
  | [], _, _, e => by cases e; rfl
  | c :: cs, st, st', e => by
    unfold Streaming.addConsumers at e
    cases h1 : st.addConsumer ops c.2 c.1 with
    | error x => rw [h1] at e; cases e
    | ok s1 =>
      rw [h1] at e
      rw [consumers_gens ops cs s1 st' e]
      unfold Streaming.addConsumer Calc.addConsumer at h1
      simp only [bind, Except.bind] at h1
      split at h1
      · cases h1
      · rename_i b hb
        cases h1
        split at hb
        · cases hb
        · cases hb; rfl

/-- **C108, streaming.** The same with a `StreamingCalculator`, for any sequence of calls. -/
theorem C108_stream (memE : Nat → List (Fl ℝ)) (memZ : ZN.Mem) (memB : Nat → List Bool) (ops : Ops FGen C ℝ) (hops : ops.gen = FKind.ops memE memZ) (kinds : List (FKind × Nat))
    (consumers : List (C × List Nat)) (needed : List Nat) (m seriesWindow : Int) (queryWindow : Option Int) (nDim : Nat) (buffer : Option Int)
    (calls calls' : List (Streaming.Op ℝ)) (h : List.Forall₂ (CallsAlike kinds) calls calls') :
    streamAll ops (kinds.map fun k => (k.1.streaming memE memZ memB, k.2)) consumers needed m seriesWindow queryWindow nDim buffer calls' =
      streamAll ops (kinds.map fun k => (k.1.streaming memE memZ memB, k.2)) consumers needed m seriesWindow queryWindow nDim buffer calls := by
  unfold streamAll
  cases e : (Streaming.init m seriesWindow queryWindow nDim buffer : Except PyErr (Streaming FGen C)) with
  | error e' => rfl
  | ok st =>
    have h0 : GensMade kinds st.base.gens := by
      have : st.base.gens = [] := by
        unfold Streaming.init Calc.init at e
        cases queryWindow with
        | none =>
          simp only [if_true, bind, Except.bind] at e
          split at e
          · cases e
          · rename_i b hb
            cases e
            split at hb
            · cases hb; rfl
            · cases hb
        | some q =>
          simp only [Bool.false_eq_true, if_false, bind, Except.bind] at e
          cases e; rfl
      rw [this]
      exact fun _ h => by simp at h
    simp only [bind, Except.bind]
    cases e1 : Streaming.addGenerators (kinds.map fun k => (k.1.streaming memE memZ memB, k.2)) st with
    | error e' => rfl
    | ok s1 =>
      have g1 := generators_made memE memZ memB kinds st s1 (fun _ h => h) h0 e1
      dsimp only
      cases e2 : Streaming.addConsumers ops consumers s1 with
      | error e' => rfl
      | ok s2 =>
        dsimp only
        rw [run_alike hops needed calls calls' s2 h (by rw [consumers_gens ops consumers s1 s2 e2]; exact g1)]

/-! ### Cases -/

/-- A filter for channel 0 and a generator for channel 1. -/
noncomputable def exMarkedKinds : List (FKind × Nat) := [(.filtered (fun x => !x.isFinite) (3 / 2) (.euclidean 2), 0), (.plain (.znorm 0 2), 1)]

/-- A NaN in the first channel may be replaced by an infinity, or the other way round. -/
theorem exMarked_alike : RowsAlike exMarkedKinds [[.fin 1, .nan, .fin 3, .pinf], [.fin 2, .fin 0, .fin 2, .fin 5]] [[.fin 1, .ninf, .fin 3, .nan], [.fin 2, .fin 0, .fin 2, .fin 5]] where
  rows := rfl
  cols := by
    intro i x y hx hy
    match i with
    | 0 => cases hx; cases hy; rfl
    | 1 => cases hx; cases hy; rfl
    | _ + 2 => cases hx
  same := by
    intro k hk x y hx hy j u v hu hv
    simp only [exMarkedKinds, List.mem_cons, List.not_mem_nil, or_false] at hk
    rcases hk with rfl | rfl
    · cases hx; cases hy
      match j with
      | 0 => cases hu; cases hv; exact .inl rfl
      | 1 => cases hu; cases hv; exact .inr ⟨rfl, rfl⟩
      | 2 => cases hu; cases hv; exact .inl rfl
      | 3 => cases hu; cases hv; exact .inr ⟨rfl, rfl⟩
      | _ + 4 => cases hu
    · cases hx; cases hy
      rw [hu] at hv
      exact Option.some.inj hv

example := fun calls => C108_batch (fun n => List.replicate n .nan) ZN.zeroMem (MP.ops (FKind.ops (fun n => List.replicate n .nan) ZN.zeroMem)) List.reverse exMarkedKinds
  [(MP.new, [0]), (MP.new, [1])] [0, 1] 2 _ _ none none (some 0) calls exMarked_alike .none

example := C108_stream (fun n => List.replicate n .nan) ZN.zeroMem (fun n => List.replicate n true) (MP.ops (FKind.ops (fun n => List.replicate n .nan) ZN.zeroMem)) rfl exMarkedKinds
  [(MP.new, [0]), (MP.new, [1])] [0, 1] 2 4 none 2 (some 0)
  [.series (.d2 [[.fin 1, .nan, .fin 3, .pinf], [.fin 2, .fin 0, .fin 2, .fin 5]] 4), .columns (fun _ => false) (.float (.fin 1))]
  [.series (.d2 [[.fin 1, .ninf, .fin 3, .nan], [.fin 2, .fin 0, .fin 2, .fin 5]] 4), .columns (fun _ => false) (.float (.fin 1))]
  (.cons ⟨rfl, exMarked_alike⟩ (.cons ⟨rfl, rfl⟩ .nil))

/-- Without a filter a NaN is not like an infinity. -/
example : ¬ (FKind.plain (.euclidean 2)).Alike .nan .pinf := by simp [FKind.Alike]

end Verif
