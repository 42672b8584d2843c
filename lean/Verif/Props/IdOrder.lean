import Verif.Lemmas.ConsumerPairs
import Verif.Lemmas.BufferShape
import Verif.Props.MultiProfile
import Verif.Props.StreamProfile
import Verif.Model.Assembly
import Verif.Model.Consumers
import Verif.Model.EndToEnd

/-!
# C113: the order of the generators of a `MultidimensionalMatrixProfileLR` does not matter
-/

namespace Verif
open Spec
variable {G K : Type}

section
variable [Field K] [LinearOrder K]

/-- Two `MultidimensionalMatrixProfileLR` objects that show the same profiles and indices (the dimensions may differ). -/
structure Spec.SameNumbers (p q : MDMP K) : Prop where
  left : q.left.mp.items = p.left.mp.items
  right : q.right.mp.items = p.right.mp.items
  leftIdx : q.left.pi.items = p.left.pi.items
  rightIdx : q.right.pi.items = p.right.pi.items
  merged : q.merged = p.merged
  mergedIdx : q.mergedIdx = p.mergedIdx
  seriesShift : q.seriesShift = p.seriesShift
  queryShift : q.queryShift = p.queryShift

namespace IdOrder

/-- Sides that differ in the dimensions only. -/
structure Side (a b : MDSide K) : Prop where
  mp : b.mp = a.mp
  pi : b.pi = a.pi
  dm : List.Forall₂ RB.Like a.dm b.dm

/-- Objects that differ in the dimensions only. -/
structure Twin (p q : MDMP K) : Prop where
  nDim : q.nDim = p.nDim
  range : q.range = p.range
  ss : q.seriesShift = p.seriesShift
  qs : q.queryShift = p.queryShift
  left : Side p.left q.left
  right : Side p.right q.right

omit [Field K] [LinearOrder K] in
theorem Side.refl (a : MDSide K) : Side a a := ⟨rfl, rfl, List.forall₂_same.mpr fun _ _ => .refl _⟩

omit [Field K] [LinearOrder K] in
theorem Twin.refl (p : MDMP K) : Twin p p := ⟨rfl, rfl, rfl, rfl, .refl _, .refl _⟩

/-- In step. -/
def Pair (ids ids' : List Nat) (o o' : MDObj K) : Prop :=
  ids.Perm ids' ∧ ∃ p q, o.st = some p ∧ o'.st = some q ∧ Twin p q

omit [Field K] in
theorem Twin.shows {p q : MDMP K} (h : Twin p q) : SameNumbers p q :=
  ⟨by rw [h.left.mp], by rw [h.right.mp], by rw [h.left.pi], by rw [h.right.pi], by unfold MDMP.merged; rw [h.left.mp, h.right.mp],
    by unfold MDMP.mergedIdx; rw [h.left.mp, h.right.mp, h.left.pi, h.right.pi], h.ss, h.qs⟩

omit [Field K] in
theorem Pair.shows {ids ids' : List Nat} {o o' : MDObj K} (h : Pair ids ids' o o') : ∃ p q, o.st = some p ∧ o'.st = some q ∧ SameNumbers p q := by
  obtain ⟨-, p, q, h1, h2, h3⟩ := h
  exact ⟨p, q, h1, h2, h3.shows⟩

omit [Field K] [LinearOrder K] in
theorem call {ids ids' : List Nat} {o o' : MDObj K} (h : Pair ids ids' o o') {f g : MDMP K → Except PyErr (MDMP K)} (hfg : ∀ p q, Twin p q → Alike Twin (f p) (g q)) :
    Alike (Pair ids ids') (o.call f) (o'.call g) := by
  unfold MDObj.call
  obtain ⟨hi, p, q, h1, h2, h3⟩ := h
  rw [h1, h2]
  dsimp only
  rcases hfg p q h3 with ⟨e, e1, e2⟩ | ⟨a, b, e1, e2, e3⟩
  · rw [e1, e2]; exact .err _
  · rw [e1, e2]; exact .ok ⟨hi, a, b, rfl, rfl, e3⟩

omit [Field K] [LinearOrder K] in
theorem fetch_map {rows : List (List (Fl K))} : ∀ {ids : List Nat} {vals : List (List (Fl K))}, fetch rows ids = .ok vals → vals = ids.map fun id => rows.getD id [] := by
  intro ids vals h
  have := (mapM_ok_iff _ _ _).mp h
  induction this with
  | nil => rfl
  | @cons id v ids vals h1 h2 ih =>
    rw [List.map_cons, ← ih ((mapM_ok_iff _ _ _).mpr h2), List.getD_eq_getElem?_getD, (pyGet_nat_ok _ _ _).mp h1]
    rfl

omit [Field K] in
theorem npSort_perm {l l' : List (Fl K)} (h : l.Perm l') : npSort l = npSort l' := by
  unfold npSort
  exact List.Perm.eq_of_pairwise (le := (· ≤ ·)) (fun a b _ _ h1 h2 => le_antisymm h1 h2) (List.pairwise_insertionSort _ _) (List.pairwise_insertionSort _ _)
    (((List.perm_insertionSort _ l).trans h).trans (List.perm_insertionSort _ l').symm)

omit [Field K] [LinearOrder K] in
theorem vals_perm {rows vals vals' : List (List (Fl K))} {ids ids' : List Nat} (hp : ids.Perm ids') (h : fetch rows ids = .ok vals) (h' : fetch rows ids' = .ok vals') :
    vals.Perm vals' := by
  rw [fetch_map h, fetch_map h']
  exact hp.map _

omit [Field K] in
theorem sorted_eq {rows vals vals' : List (List (Fl K))} {ids ids' : List Nat} {n : Nat} (hp : ids.Perm ids') (hr : ∀ r ∈ rows, r.length = n) (h : fetch rows ids = .ok vals)
    (h' : fetch rows ids' = .ok vals') : SameLen (colsOf vals) (colsOf vals') ∧ (colsOf vals').map npSort = (colsOf vals).map npSort := by
  have hv := vals_perm hp h h'
  have len : ∀ {ids : List Nat} {vals : List (List (Fl K))}, fetch rows ids = .ok vals → ∀ r ∈ vals, r.length = n := by
    intro ids vals h r hr'
    obtain ⟨k, hk, rfl⟩ := List.getElem_of_mem hr'
    have hf := (mapM_ok_iff _ _ _).mp h
    have hk' : k < ids.length := by rw [hf.length_eq]; exact hk
    have := (List.forall₂_iff_get.mp hf).2 k hk' hk
    exact hr _ (List.mem_of_getElem? ((pyGet_nat_ok _ _ _).mp this))
  have e : (vals'.headD []).length = (vals.headD []).length := by
    match vals, vals', hv, len h, len h' with
    | [], [], _, _, _ => rfl
    | [], v :: l, hv, _, _ => exact absurd hv.length_eq (by simp)
    | v :: l, [], hv, _, _ => exact absurd hv.length_eq (by simp)
    | v :: l, v' :: l', _, h1, h2 =>
      rw [List.headD_cons, List.headD_cons, h1 v List.mem_cons_self, h2 v' List.mem_cons_self]
  unfold colsOf SameLen
  rw [e]
  refine ⟨by simp only [List.length_map], ?_⟩
  rw [List.map_map, List.map_map]
  refine List.map_congr_left fun k _ => npSort_perm (hv.symm.filterMap _)

theorem side_column {a b : MDSide K} (h : Side a b) (argsort argsort' : List (Fl K) → List Nat) (dim : Nat) (c : Int) {vals vals' : List (List (Fl K))} (hv : SameLen vals vals')
    (cum part : List (Fl K)) (lo qs : Int) : Alike Side (a.column argsort dim c vals cum part lo qs) (b.column argsort' dim c vals' cum part lo qs) := by
  unfold MDSide.column
  rw [h.mp, h.pi]
  refine (Alike.refl _).bind fun am _ e => ?_
  subst e
  refine (Alike.refl _).bind fun x _ e => ?_
  subst e
  refine (Alike.refl _).bind fun old _ e => ?_
  subst e
  split
  · refine (Alike.refl _).bind fun mp _ e => ?_
    subst e
    refine (Alike.refl _).bind fun pi _ e => ?_
    subst e
    exact (pyGet_forall₂ h.dm dim).bind fun d d' hd => (pyGet_len hv _).bind fun col col' _ => (hd.setItem c _ _).bind fun r r' hr => (pySet_forall₂ h.dm dim hr).bind fun x y hxy =>
      .ok ⟨rfl, rfl, hxy⟩
  · exact .ok h

omit [Field K] in
theorem side_update {a b : MDSide K} (h : Side a b) (dim : Nat) (dist : List (Fl K)) (rows : List Int) {dims dims' : List (List Int)} (hd : SameLen dims dims') (i j : Int) :
    Alike Side (a.update dim dist rows dims i j) (b.update dim dist rows dims' i j) := by
  unfold MDSide.update
  rw [h.mp, h.pi, show dims'.length = dims.length from hd]
  refine (pyGet_forall₂ h.dm dim).bind fun dm dm' hdm => ?_
  refine (Alike.refl _).bind fun row _ e => ?_
  subst e
  refine (Alike.refl _).bind fun upd _ e => ?_
  subst e
  split
  · refine (Alike.refl _).bind fun mpNew _ e => ?_
    subst e
    refine (Alike.refl _).bind fun piNew _ e => ?_
    subst e
    refine (Alike.refl _).bind fun mp _ e => ?_
    subst e
    refine (Alike.refl _).bind fun pi _ e => ?_
    subst e
    refine (hdm.setSlice i j ?_).bind fun r r' hr => (pySet_forall₂ h.dm dim hr).bind fun x y hxy => .ok ⟨rfl, rfl, hxy⟩
    have := hdm.items.slice i j
    unfold SameLen at this hd ⊢
    simp only [List.length_map, List.length_zip, this, hd]
  · exact .err _

theorem side_loop (sorted : List (List (Fl K))) {order order' : List (List Int)} (ho : SameLen order order') (rows : List Int) (i j : Int) : ∀ (l : List Nat) {a b : MDSide K}, Side a b →
    ∀ cum : List (Fl K), Alike (fun x y => Side x.1 y.1 ∧ y.2 = x.2) (a.loop sorted order rows i j cum l) (b.loop sorted order' rows i j cum l)
  | [], _, _, h, _ => .ok ⟨h, rfl⟩
  | dim :: l, a, b, h, cum => by
    unfold MDSide.loop
    refine (Alike.refl _).bind fun row _ e => ?_
    subst e
    refine (side_update h dim _ rows (?_ : SameLen (order.map _) (order'.map _)) i j).bind fun x y hxy => side_loop sorted ho rows i j l hxy _
    unfold SameLen at *
    rw [List.length_map, List.length_map, ho]

theorem column {p q : MDMP K} (h : Twin p q) (argsort argsort' : List (Fl K) → List Nat) (c : Int) (n : Nat) {vals vals' : List (List (Fl K))} (hv : SameLen vals vals')
    (hs : vals'.map npSort = vals.map npSort) : Alike Twin (p.processColumn argsort c n vals) (q.processColumn argsort' c n vals') := by
  unfold MDMP.processColumn
  rw [h.ss, h.qs, show vals'.length = vals.length from hv]
  generalize List.replicate vals.length (Fl.fin (0 : K)) = cum
  generalize max 0 (c + 1 + (p.seriesShift - p.queryShift)) = border
  induction List.range n generalizing p q cum with
  | nil => exact .ok h
  | cons dim l ih =>
    unfold MDMP.columnLoop
    rw [hs]
    refine (Alike.refl _).bind fun row _ e => ?_
    subst e
    refine Alike.bind (R := Side) ?_ fun x y hxy => Alike.bind (R := Side) ?_ fun u v huv => ih (p := { p with left := x, right := u }) (q := { q with left := y, right := v }) ⟨h.nDim, h.range, h.ss, h.qs, hxy, huv⟩ _
    · unfold MDMP.columnLeft
      rw [h.qs]
      split
      · exact side_column h.left argsort argsort' dim c hv _ _ _ _
      · exact .ok h.left
    · unfold MDMP.columnRight
      rw [h.qs, show vals'.length = vals.length from hv]
      split
      · exact side_column h.right argsort argsort' dim c hv _ _ _ _
      · exact .ok h.right

theorem second {p q : MDMP K} (h : Twin p q) (d : Int) (n : Nat) (sorted : List (List (Fl K))) {order order' : List (List Int)} (ho : SameLen order order') (cum : List (Fl K)) (l : List Nat) :
    Alike Twin (p.secondPass d n sorted order cum l) (q.secondPass d n sorted order' cum l) := by
  unfold MDMP.secondPass
  rw [h.range]
  dsimp only
  split
  · exact (side_loop sorted ho _ _ _ l h.left cum).bind fun x y hxy => .ok ⟨h.nDim, rfl, h.ss, h.qs, hxy.1, h.right⟩
  · exact (side_loop sorted ho _ _ _ l h.right cum).bind fun x y hxy => .ok ⟨h.nDim, rfl, h.ss, h.qs, h.left, hxy.1⟩

theorem diagonal {p q : MDMP K} (h : Twin p q) (argsort argsort' : List (Fl K) → List Nat) (d : Int) (n : Nat) {vals vals' : List (List (Fl K))} (hv : SameLen vals vals')
    (hs : vals'.map npSort = vals.map npSort) : Alike Twin (p.processDiagonal argsort d n vals) (q.processDiagonal argsort' d n vals') := by
  have ho : SameLen (vals.map fun v => (argsort v).map fun i : Nat => (i : Int)) (vals'.map fun v => (argsort' v).map fun i : Nat => (i : Int)) := by
    unfold SameLen at *
    rw [List.length_map, List.length_map, hv]
  unfold MDMP.processDiagonal
  rw [h.ss, h.qs, h.range, hs, show vals'.length = vals.length from hv]
  dsimp only
  split
  · refine (side_loop _ ho _ _ _ _ h.left _).bind fun x y hxy => ?_
    obtain ⟨x, cx⟩ := x
    obtain ⟨y, cy⟩ := y
    obtain ⟨hxy, rfl⟩ := hxy
    exact second (p := { p with left := x }) (q := { q with range := p.range, seriesShift := p.seriesShift, queryShift := p.queryShift, left := y }) ⟨h.nDim, rfl, rfl, rfl, hxy, h.right⟩ _ _ _ ho _ _
  · split
    · exact .err _
    · refine (side_loop _ ho _ _ _ _ h.right _).bind fun x y hxy => ?_
      obtain ⟨x, cx⟩ := x
      obtain ⟨y, cy⟩ := y
      obtain ⟨hxy, rfl⟩ := hxy
      exact second (p := { p with right := x }) (q := { q with range := p.range, seriesShift := p.seriesShift, queryShift := p.queryShift, right := y }) ⟨h.nDim, rfl, rfl, rfl, h.left, hxy⟩ _ _ _ ho _ _

theorem shiftDims (n : Nat) : ∀ {l l' : List (RB (List Int))} (dim : Nat), List.Forall₂ RB.Like l l' →
    Alike (List.Forall₂ RB.Like) (MDSide.shiftDims n dim l) (MDSide.shiftDims n dim l')
  | _, _, _, .nil => .ok .nil
  | _, _, dim, .cons h hs => by
    unfold MDSide.shiftDims
    exact (h.pushArr _ rfl).bind fun x y hxy => (shiftDims n (dim + 1) hs).bind fun u v huv => .ok (.cons hxy.1 huv)

omit [Field K] [LinearOrder K] in
theorem side_shift {a b : MDSide K} (h : Side a b) (dims n : Nat) : Alike Side (a.shift dims n) (b.shift dims n) := by
  unfold MDSide.shift
  rw [h.mp, h.pi]
  refine (Alike.refl _).bind fun x _ e => ?_
  subst e
  refine (Alike.refl _).bind fun y _ e => ?_
  subst e
  exact (shiftDims n 0 h.dm).bind fun u v huv => .ok ⟨rfl, rfl, huv⟩

omit [Field K] [LinearOrder K] in
theorem series {p q : MDMP K} (h : Twin p q) (n : Int) : Alike Twin (p.shiftSeries n) (q.shiftSeries n) := by
  unfold MDMP.shiftSeries
  rw [h.nDim, h.ss]
  split
  · exact .ok h
  · split
    · exact .err _
    · exact (side_shift h.left _ _).bind fun x y hxy => (side_shift h.right _ _).bind fun u v huv => .ok ⟨rfl, h.range, rfl, h.qs, hxy, huv⟩

omit [Field K] [LinearOrder K] in
theorem query {p q : MDMP K} (h : Twin p q) (n : Int) : Alike Twin (p.shiftQuery n) (q.shiftQuery n) := by
  unfold MDMP.shiftQuery
  rw [h.range, h.qs]
  split
  · exact .ok h
  · refine (Alike.refl _).bind fun x _ e => ?_
    subst e
    refine (Alike.refl _).bind fun y _ e => ?_
    subst e
    exact .ok ⟨h.nDim, rfl, h.ss, rfl, h.left, h.right⟩

theorem callColumn {ids ids' : List Nat} {o o' : MDObj K} (hp : Pair ids ids' o o') (argsort argsort' : List (Fl K) → List Nat) (x : Int) {rows vals vals' : List (List (Fl K))} {n : Nat}
    (hr : ∀ r ∈ rows, r.length = n) (e1 : fetch rows ids = .ok vals) (e2 : fetch rows ids' = .ok vals') :
    Alike (Pair ids ids') (o.call fun p => p.processColumn argsort x vals.length (colsOf vals)) (o'.call fun p => p.processColumn argsort' x vals'.length (colsOf vals')) := by
  obtain ⟨k1, k2⟩ := sorted_eq hp.1 hr e1 e2
  have k3 := (vals_perm hp.1 e1 e2).length_eq
  generalize colsOf vals = u at *
  generalize colsOf vals' = v at *
  rw [← k3]
  exact call hp fun p q hpq => column hpq argsort argsort' x _ k1 k2

theorem callDiagonal {ids ids' : List Nat} {o o' : MDObj K} (hp : Pair ids ids' o o') (argsort argsort' : List (Fl K) → List Nat) (x : Int) {rows vals vals' : List (List (Fl K))} {n : Nat}
    (hr : ∀ r ∈ rows, r.length = n) (e1 : fetch rows ids = .ok vals) (e2 : fetch rows ids' = .ok vals') :
    Alike (Pair ids ids') (o.call fun p => p.processDiagonal argsort x vals.length (colsOf vals)) (o'.call fun p => p.processDiagonal argsort' x vals'.length (colsOf vals')) := by
  obtain ⟨k1, k2⟩ := sorted_eq hp.1 hr e1 e2
  have k3 := (vals_perm hp.1 e1 e2).length_eq
  generalize colsOf vals = u at *
  generalize colsOf vals' = v at *
  rw [← k3]
  exact call hp fun p q hpq => diagonal hpq argsort argsort' x _ k1 k2

theorem gen_eq (argsort : List (Fl K) → List Nat) (gops : GenOps G K) : (MDMP.ops argsort gops).gen = gops := rfl

theorem inStep (argsort argsort' : List (Fl K) → List Nat) (gops : GenOps G K) (h w : Int) :
    InStep h w True True True Pair (MDMP.ops argsort gops) (MDMP.ops argsort' gops) where
  gen := (gen_eq argsort' gops).trans (gen_eq argsort gops).symm
  perm := fun _ _ _ _ hp => hp.1
  column := fun _ _ _ _ _ hp x _ _ _ _ _ _ hr e1 e2 => callColumn hp argsort argsort' x hr e1 e2
  diagonal := fun _ _ _ _ _ hp x _ _ _ _ _ _ hr e1 e2 => callDiagonal hp argsort argsort' x hr e1 e2
  series := fun _ _ _ _ _ hp n _ => call hp fun _ _ hpq => series hpq n
  query := fun _ _ _ _ _ hp n _ => call hp fun _ _ hpq => query hpq n

theorem init (o : MDObj K) {ids ids' : List Nat} (hp : ids.Perm ids') (h w : Int) (argsort argsort' : List (Fl K) → List Nat) (gops : GenOps G K) :
    Alike (Pair ids ids') ((MDMP.ops argsort gops).initialise o ids.length h w) ((MDMP.ops argsort' gops).initialise o ids'.length h w) := by
  show Alike _ (o.initialise ids.length w) (o.initialise ids'.length w)
  rw [← hp.length_eq]
  unfold MDObj.initialise
  split
  · exact .err _
  · cases MDMP.initialise o.memF o.memI o.memR o.scale ids.length w.toNat with
    | error e => exact .err e
    | ok p => exact .ok ⟨hp, _, _, rfl, rfl, .refl _⟩

end IdOrder

/-- **C113, batch.** Two calculations with `AnytimeCalculator` or `Calculator` that differ in the order of the generators of the `MultidimensionalMatrixProfileLR` consumers only
(and, if need be, in the order in which `np.argsort` puts equal numbers): any generators, data and calls (columns and diagonals, whether they raise or not). Both raise the same
exception, or all profiles and profile indices are the same. -/
theorem C113_batch (argsort argsort' : List (Fl K) → List Nat) (gops : GenOps G K) (shuffle : List Int → List Int) (hsh : ∀ l, ∀ d ∈ shuffle l, d ∈ l)
    (gens : List ((Int → List (Fl K) → Option (List (Fl K)) → Except PyErr G) × Nat)) (cs : List (MDObj K × List Nat × List Nat)) (hcs : ∀ c ∈ cs, c.2.1.Perm c.2.2)
    (needed : List Nat) (m : Int) (series : List (List (Fl K))) (query : Option (List (List (Fl K)))) (buffer : Option Int) (hs : m ≤ Anytime.npCols series)
    (calls : List Anytime.Op) :
    Alike (List.Forall₂ fun x y => ∃ p q, x.1.st = some p ∧ y.1.st = some q ∧ SameNumbers p q)
      (batchAll (MDMP.ops argsort gops) shuffle gens (cs.map fun c => (c.1, c.2.1)) needed m series query buffer calls)
      (batchAll (MDMP.ops argsort' gops) shuffle gens (cs.map fun c => (c.1, c.2.2)) needed m series query buffer calls) := by
  refine (batch_inStep shuffle hsh gens _ _ needed m series query buffer calls rfl rfl (by omega) (IdOrder.inStep argsort argsort' gops _ _) ?_ (fun o _ => by
    cases o <;> trivial)).mono fun a b hab => hab.imp fun x y h => h.shows
  rw [List.forall₂_map_left_iff, List.forall₂_map_right_iff]
  exact List.forall₂_same.mpr fun c hc => IdOrder.init c.1 (hcs c hc) _ _ argsort argsort' gops

/-- **C113, streams.** The same for `StreamingCalculator`. -/
theorem C113_stream (argsort argsort' : List (Fl K) → List Nat) (gops : GenOps G K) (gens : List ((Int → Int → Option Int → Except PyErr G) × Nat))
    (cs : List (MDObj K × List Nat × List Nat)) (hcs : ∀ c ∈ cs, c.2.1.Perm c.2.2) (needed : List Nat) (m sw : Int) (qw : Option Int) (nDim : Nat) (buffer : Option Int)
    (hs : m ≤ sw) (calls : List (Streaming.Op K)) :
    Alike (List.Forall₂ fun x y => ∃ p q, x.1.st = some p ∧ y.1.st = some q ∧ SameNumbers p q)
      (streamAll (MDMP.ops argsort gops) gens (cs.map fun c => (c.1, c.2.1)) needed m sw qw nDim buffer calls)
      (streamAll (MDMP.ops argsort' gops) gens (cs.map fun c => (c.1, c.2.2)) needed m sw qw nDim buffer calls) := by
  refine (stream_inStep gens _ _ needed m sw qw nDim buffer calls rfl rfl (by omega) (IdOrder.inStep argsort argsort' gops _ _) ?_).mono
    fun a b hab => hab.imp fun x y h => h.shows
  rw [List.forall₂_map_left_iff, List.forall₂_map_right_iff]
  exact List.forall₂_same.mpr fun c hc => IdOrder.init c.1 (hcs c hc) _ _ argsort argsort' gops

end

/-! ### Examples -/

/-- What a `MultidimensionalMatrixProfileLR` shows: profile, index and dimensions of the left side. -/
def exLeft (l : List (MDObj ℚ × List Nat)) : List (Option (List (List (Fl ℚ)) × List (List Int) × List (List (List Int)))) :=
  l.map fun c => c.1.st.map fun q => (q.left.mp.items, q.left.pi.items, q.left.dm.map (·.items))

/-- Two channels 1 5 2 8 and 3 3 7 1, `m = 1`, query 4 NaN 7 and 2 6 6; diagonals and columns. -/
example := C113_batch exArgsort exArgsort (Eucl.genOps zeroMem (fun x : ℚ => x)) List.reverse (fun _ _ h => List.mem_reverse.mp h)
  [(fun m s q => Eucl.prepare zeroMem m.toNat s q, 0), (fun m s q => Eucl.prepare zeroMem m.toNat s q, 1)] [(exMDObj ℚ, [0, 1], [1, 0]), (exMDObj ℚ, [1, 0, 0], [0, 1, 0])]
  (by decide) [0, 1] 1 [[.fin 1, .fin 5, .fin 2, .fin 8], [.fin 3, .fin 3, .fin 7, .fin 1]] (some [[.fin 4, .nan, .fin 7], [.fin 2, .fin 6, .fin 6]]) none (by decide)
  [.diagonals (fun _ => false) (.float (.fin (1 / 2))), .columns (fun _ => false) (some (.int 0)) (.int 2), .columns (fun _ => false) none (.float (.fin 1))]

/-- The calls of `exStreamCalls`, with two generators for the same channel, and any calls at the end. -/
example (os : List (Streaming.Op ℚ)) := C113_stream exArgsort (fun l => (exArgsort l.reverse).reverse) (Eucl.genOps zeroMem (fun x : ℚ => x))
  [(Eucl.streaming zeroMem 2, 0), (Eucl.streaming zeroMem 1, 0)] [(exMDObj ℚ, [0, 1], [1, 0])] (by decide) [0, 1] 2 4 (some 3) 1 none (by norm_num) (exStreamCalls ++ os)

set_option synthInstance.maxSize 1000 in
/-- The dimensions are those of the consumer's own order: channels 1 5 and 3 3, query 4 9 and 2 6, `m = 1`, all columns. -/
example : [[0, 1], [1, 0]].map (fun ids => (batchAll (MDMP.ops exArgsort (Eucl.genOps zeroMem (fun x : ℚ => x))) List.reverse
      [(fun m s q => Eucl.prepare zeroMem m.toNat s q, 0), (fun m s q => Eucl.prepare zeroMem m.toNat s q, 1)] [(exMDObj ℚ, ids)] [0, 1] 1
      [[.fin 1, .fin 5], [.fin 3, .fin 3]] (some [[.fin 4, .fin 9], [.fin 2, .fin 6]]) none [.columns (fun _ => false) none (.float (.fin 1))]).map exLeft) =
    [.ok [some ([[.fin 1, .fin 5], [.fin 1, .fin 1]], [[0, 0], [0, 0]], [[[1], [0]], [[1, 0], [0, 1]]])],
      .ok [some ([[.fin 1, .fin 5], [.fin 1, .fin 1]], [[0, 0], [0, 0]], [[[0], [0]], [[0, 1], [0, 1]]])]] := by
  decide +kernel


end Verif
