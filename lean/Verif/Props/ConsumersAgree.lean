import Verif.Lemmas.ConsumerPairs
import Verif.Props.MultiProfile
import Verif.Props.StreamProfile
import Verif.Model.Assembly
import Verif.Model.Consumers
import Verif.Model.EndToEnd
import Verif.Props.MatrixProfile

/-!
# C112: consumers of different classes agree
-/

namespace Verif
open Spec
variable {G K : Type}

section
variable [Field K] [LinearOrder K] [IsStrictOrderedRing K]

/-- What a `MultidimensionalMatrixProfileLR` object of one channel shows in terms of what a `ShiftingMatrixProfileLR` object shows: the profiles and indices have one row
holding the same numbers; the dimension is 0 where an index is known and -1 where none is. -/
structure Spec.OneChannel (p : ShiftingMP K) (q : MDMP K) : Prop where
  left : q.left.mp.items = p.left.mp.items.map ([·])
  right : q.right.mp.items = p.right.mp.items.map ([·])
  leftIdx : q.left.pi.items = p.left.pi.items.map ([·])
  rightIdx : q.right.pi.items = p.right.pi.items.map ([·])
  leftDim : ∃ rb, q.left.dm = [rb] ∧ rb.items = p.left.pi.items.map fun i => [if i = -1 then -1 else 0]
  rightDim : ∃ rb, q.right.dm = [rb] ∧ rb.items = p.right.pi.items.map fun i => [if i = -1 then -1 else 0]
  merged : q.merged = (MP.merged p.left.mp.items p.right.mp.items).map ([·])
  mergedIdx : q.mergedIdx = (MP.mergedIdx p.left.mp.items p.right.mp.items p.left.pi.items p.right.pi.items).map ([·])
  mergedDims : q.mergedDims = .ok [(MP.mergedIdx p.left.mp.items p.right.mp.items p.left.pi.items p.right.pi.items).map fun i => [if i = -1 then -1 else 0]]
  seriesShift : q.seriesShift = p.seriesShift
  queryShift : q.queryShift = p.queryShift

namespace OneChannel

/-- The three values of an entry. -/
def entry (x : Fl K × Int) : Fl K × Int × List Int := (x.1, x.2, [if x.2 = -1 then -1 else 0])

/-- The buffers of a side. -/
def Side (w : Nat) (a : MPSide K) (b : MDSide K) : Prop := ∃ f : Nat → Fl K × Int, a.Rep w f ∧ b.Rep 1 w fun _ c => entry (f c)

theorem div_one (x : Fl K) : Fl.div x (.fin (((0 : Nat) : K) + 1)) = x := by
  cases x <;> simp [Fl.div]

theorem zero_add' (x : Fl K) : Fl.add (.fin 0) x = x := by
  cases x <;> simp [Fl.add]

theorem side_column {w : Nat} {a : MPSide K} {b : MDSide K} (h : Side w a b) (argsort : List (Fl K) → List Nat) (has : ∀ l, IsArgsort l (argsort l)) (c : Nat) (hc : c < w)
    (vals part : List (Fl K)) (lo qs : Int) (h0 : 0 ≤ lo) (h1 : 0 ≤ qs) (hpart : ∀ (j : Nat) x, part[j]? = some x → vals[lo.toNat + j]? = some x) :
    Alike (Side w) (a.column c part (lo + qs)) (b.column argsort 0 c (vals.map ([·])) vals part lo qs) := by
  obtain ⟨f, ha, hb⟩ := h
  unfold MPSide.column MDSide.column
  rcases eq_or_ne part [] with rfl | hne
  · exact .err _
  obtain ⟨j, e1, hj, e2, -, -⟩ := npArgmin_spec part hne
  have e3 : pyGet a.mp.items (c : Int) = .ok (f c).1 := (pyGet_nat_ok _ _ _).mpr (ha.holds.get hc).1
  have hx := hpart j part[j] (List.getElem?_eq_getElem hj)
  have hpos : (j : Int) + lo = ((lo.toNat + j : Nat) : Int) := by omega
  have e4 : pyGet vals ((j : Int) + lo) = .ok part[j] := by rw [hpos]; exact (pyGet_nat_ok _ _ _).mpr hx
  have e5 : pyGet (vals.map ([·])) ((j : Int) + lo) = .ok [part[j]] := by
    rw [hpos]; exact (pyGet_nat_ok _ _ _).mpr (by rw [List.getElem?_map, hx]; rfl)
  have e6 := hb.mp.get 0 c (by omega) hc
  simp only [e1, e2, e3, e4, e5, e6, bind, Except.bind, div_one, entry]
  by_cases hlt : Fl.ltF part[j] (f c).1 = true
  · rw [if_pos hlt, if_pos hlt]
    set new : Fl K × Int := (part[j], (j : Int) + (lo + qs)) with hnew
    set f' : Nat → Fl K × Int := fun c' => if c' = c then new else f c' with hf'
    obtain ⟨mp', pi', s1, s2, s3⟩ := ha.holds.set (f' := f') c hc new (by simp [hf']) (fun c' _ hne => by simp [hf', hne])
    obtain ⟨rm, g1, g2, g3⟩ := ha.mp.setItem_ok s1
    obtain ⟨ri, g4, g5, g6⟩ := ha.pi.setItem_ok s2
    obtain ⟨bm, k1, k2⟩ := hb.mp.set 0 c (by omega) hc part[j]
    obtain ⟨bi, k3, k4⟩ := hb.pi.set 0 c (by omega) hc new.2
    obtain ⟨rb, k5, k6, k7, k8⟩ := hb.dm 0 (by omega)
    have k9 := pySet_range_map w (fun c => (entry (f c)).2.2) c hc [0]
    rw [← k8] at k9
    obtain ⟨rb', l1, l2, l3, l4⟩ := k6.setItem_lead k9
    obtain ⟨dm', l5, l6, l7⟩ := hb.set_dm (F' := fun _ c' => entry (f' c')) 0 (by omega) rb' l2 (l4.trans k7) (by
      rw [l3]
      refine List.map_congr_left fun c' _ => ?_
      by_cases e : c' = c
      · have : ¬ (j : Int) + (lo + qs) = -1 := by omega
        simp [hf', e, entry, hnew, this]
      · simp [hf', e]) (by
      intro k' hk' hne
      omega)
    have k3' : b.pi.setEntry 0 c ((j : Int) + lo + qs) = .ok bi := by
      rw [← k3]; congr 1; simp only [hnew]; ring
    have k5' : pyGet b.dm (0 : Int) = .ok rb := (pyGet_nat_ok _ 0 _).mpr k5
    have hsort : ((argsort [part[j]]).take (0 + 1)).map (fun i : Nat => (i : Int)) = [0] := by
      have hperm := (has [part[j]]).1
      rw [show List.range [part[j]].length = [0] from rfl, List.perm_singleton] at hperm
      rw [hperm]; rfl
    have g4' : a.pi.setItem c ((j : Int) + (lo + qs)) = .ok ri := g4
    have l5' : pySet b.dm (0 : Int) rb' = .ok dm' := l5
    have k1' : b.mp.setEntry 0 c part[j] = .ok bm := k1
    simp only [show a.mp.setItem c part[j] = .ok rm from g1, g4', k1', k3', Nat.cast_zero, k5', hsort, l1, l5', pure, Except.pure]
    show Alike _ (Except.ok _) (Except.ok _)
    refine Alike.ok ⟨f', ⟨g2, g5, by simp only [g3, g6]; exact s3⟩, k2.congr ?_, k4.congr ?_, l6, l7⟩
    · intro i hi c' _
      by_cases e : c' = c
      · simp [hf', e, hnew, entry, show i = 0 by omega]
      · simp [hf', e, entry]
    · intro i hi c' _
      by_cases e : c' = c
      · simp [hf', e, hnew, entry, show i = 0 by omega]
      · simp [hf', e, entry]
  · rw [if_neg hlt, if_neg hlt]
    exact .ok ⟨f, ha, hb⟩

theorem side_shift {w : Nat} {a : MPSide K} {b : MDSide K} (h : Side w a b) (n : Nat) : Alike (Side w) (a.shift n) (b.shift 1 n) := by
  obtain ⟨f, ha, hb⟩ := h
  obtain ⟨a', e1, e2⟩ := MPSide.shift_rep (f' := fun c => if c + n < w then f (c + n) else (.pinf, -1)) ha n (fun c hc => if_pos hc) (fun c _ hc => if_neg (by omega))
  obtain ⟨b', e3, e4⟩ := MDMP.shift_rep hb n
  rw [e1, e3]
  refine .ok ⟨_, e2, ?_⟩
  refine ⟨e4.mp.congr ?_, e4.pi.congr ?_, e4.len, fun k hk => ?_⟩
  · intro i _ c _
    split <;> simp [entry]
  · intro i _ c _
    split <;> simp [entry]
  · obtain ⟨rb, g1, g2, g3, g4⟩ := e4.dm k hk
    refine ⟨rb, g1, g2, g3, g4.trans (List.map_congr_left fun c _ => ?_)⟩
    obtain rfl : k = 0 := by omega
    split <;> simp [entry]

/-- In step. -/
structure Twin (w : Nat) (ids : List Nat) (p : ShiftingMP K) (o : MDObj K) (q : MDMP K) : Prop where
  ids : ids.length = 1
  st : o.st = some q
  nDim : q.nDim = 1
  left : Side w p.left q.left
  right : Side w p.right q.right
  ss : q.seriesShift = p.seriesShift
  qs : q.queryShift = p.queryShift
  pos : 0 ≤ p.queryShift
  range : ∃ N, p.range.Good N ∧ p.range.items ≠ []
  rangeMD : q.range.Good w ∧ q.range.items ≠ []

/-- In step. -/
def Pair (w : Nat) (ids : List Nat) (p : ShiftingMP K) (o : MDObj K) : Prop := ∃ q, Twin w ids p o q

theorem call {w : Nat} {ids : List Nat} {o : MDObj K} {q : MDMP K} (ho : o.st = some q) {x : Except PyErr (ShiftingMP K)} {f : MDMP K → Except PyErr (MDMP K)}
    (h : Alike (fun p' q' => Twin w ids p' { o with st := some q' } q') x (f q)) : Alike (Pair w ids) x (o.call f) := by
  unfold MDObj.call
  rw [ho]
  dsimp only
  rcases h with ⟨e, h1, h2⟩ | ⟨a, b, h1, h2, h3⟩
  · rw [h1, h2]; exact .err _
  · rw [h1, h2]; exact .ok ⟨b, h3⟩

theorem column {w : Nat} {ids : List Nat} {p : ShiftingMP K} {o : MDObj K} (h : Pair w ids p o) (argsort : List (Fl K) → List Nat) (has : ∀ l, IsArgsort l (argsort l)) (x : Int) (h0 : 0 ≤ x)
    (h1 : x < w) (values : List (List (Fl K))) (hv : values.length = ids.length) :
    Alike (Pair w ids) (p.processColumn x values) (o.call fun q => q.processColumn argsort x values.length (colsOf values)) := by
  obtain ⟨q, h⟩ := h
  refine call h.st ?_
  rw [h.ids] at hv
  obtain ⟨v, rfl⟩ := List.length_eq_one_iff.mp hv
  obtain ⟨c, rfl⟩ := Int.eq_ofNat_of_zero_le h0
  have hcols : colsOf [v] = v.map ([·]) := by
    unfold colsOf
    apply List.ext_getElem?
    intro i
    rw [List.getElem?_map, List.getElem?_map]
    rcases Nat.lt_or_ge i v.length with hi | hi
    · rw [List.getElem?_range (by simpa using hi), List.getElem?_eq_getElem hi]
      simp [hi]
    · rw [List.getElem?_eq_none (by simpa using hi), List.getElem?_eq_none hi]
      rfl
  have hrow : ((v.map ([·])).map npSort).mapM (pyGet · ((0 : Nat) : Int)) = .ok v := by
    rw [mapM_ok_iff, List.map_map, List.forall₂_map_left_iff]
    exact List.forall₂_same.mpr fun _ _ => rfl
  have hcum : List.zipWith Fl.add (List.replicate v.length (.fin 0)) v = v := by
    apply List.ext_getElem?
    intro i
    rw [List.getElem?_zipWith, List.getElem?_replicate]
    rcases Nat.lt_or_ge i v.length with hi | hi
    · simp [hi, zero_add']
    · simp [hi]
  rw [hcols]
  unfold ShiftingMP.processColumn MDMP.processColumn
  rw [show List.range [v].length = [0] from rfl]
  unfold MDMP.columnLoop
  rw [hrow, List.length_map]
  show Alike _ (Except.ok v >>= _) (Except.ok v >>= _)
  simp only [bind, Except.bind, hcum, h.ss, h.qs]
  set B := max 0 ((c : Int) + 1 + (p.seriesShift - p.queryShift)) with hB
  have hB0 : 0 ≤ B := le_max_left _ _
  have hl : Alike (Side w) (p.columnLeft c v B) (q.columnLeft argsort 0 c (v.map ([·])) v B) := by
    unfold ShiftingMP.columnLeft MDMP.columnLeft
    by_cases hb : B > 0
    · rw [if_pos hb, if_pos hb, h.qs]
      have := side_column h.left argsort has c (by omega) v (pyTo v B) 0 p.queryShift le_rfl h.pos (by
        intro j x hx
        rw [show B = ((B.toNat : Nat) : Int) by omega, pyTo_nat, List.getElem?_take] at hx
        split at hx
        · simpa using hx
        · simp at hx)
      rwa [Int.zero_add] at this
    · rw [if_neg hb, if_neg hb]; exact .ok h.left
  have hr : Alike (Side w) (p.columnRight c v B) (q.columnRight argsort 0 c (v.map ([·])) v B) := by
    unfold ShiftingMP.columnRight MDMP.columnRight
    rw [List.length_map]
    by_cases hb : (v.length : Int) > B
    · rw [if_pos hb, if_pos hb, h.qs]
      exact side_column h.right argsort has c (by omega) v (pyFrom v B) B p.queryShift hB0 h.pos (by
        intro j x hx
        rw [show B = ((B.toNat : Nat) : Int) by omega, pyFrom_nat, List.getElem?_drop] at hx
        exact hx)
    · rw [if_neg hb, if_neg hb]; exact .ok h.right
  refine hl.bind fun l l' hl' => hr.bind fun r r' hr' => .ok ?_
  exact ⟨h.ids, rfl, h.nDim, hl', hr', rfl, rfl, h.pos, h.range, h.rangeMD⟩

theorem series {w : Nat} {ids : List Nat} {p : ShiftingMP K} {o : MDObj K} (h : Pair w ids p o) (n : Int) (hn : 0 < n) :
    Alike (Pair w ids) (p.shiftSeries n) (o.call fun q => q.shiftSeries n) := by
  obtain ⟨q, h⟩ := h
  refine call h.st ?_
  unfold ShiftingMP.shiftSeries MDMP.shiftSeries
  rw [if_neg (by omega), if_neg (by omega), if_neg (by omega), if_neg (by omega)]
  have hsl := side_shift h.left n.toNat
  have hsr := side_shift h.right n.toNat
  rw [← h.nDim] at hsl hsr
  refine hsl.bind fun l l' hl => hsr.bind fun r r' hr => .ok ?_
  exact ⟨h.ids, rfl, h.nDim, hl, hr, by simp only [h.ss], h.qs, h.pos, h.range, h.rangeMD⟩

theorem query {w : Nat} {ids : List Nat} {p : ShiftingMP K} {o : MDObj K} (h : Pair w ids p o) (n : Int) (hn : 0 < n) :
    Alike (Pair w ids) (p.shiftQuery n) (o.call fun q => q.shiftQuery n) := by
  obtain ⟨q, h⟩ := h
  refine call h.st ?_
  unfold ShiftingMP.shiftQuery MDMP.shiftQuery
  rw [if_neg (by omega), if_neg (by omega)]
  have last : ∀ l : List Int, l ≠ [] → ∃ x, pyGet l (-1) = .ok x := by
    intro l hl
    obtain ⟨l', x, rfl⟩ := List.eq_nil_or_concat' l |>.resolve_left hl
    refine ⟨x, ?_⟩
    unfold pyGet
    simp
  obtain ⟨N, g1, g2⟩ := h.range
  obtain ⟨g3, g4⟩ := h.rangeMD
  obtain ⟨x, e1⟩ := last _ g2
  obtain ⟨y, e2⟩ := last _ g4
  obtain ⟨rb, e3, g5, i1, -⟩ := g1.push (pyRange (x + 1) (x + 1 + n))
  obtain ⟨rb', e4, g6, i2, -⟩ := g3.push (pyRange (y + 1) (y + 1 + n))
  simp only [e1, e2, bind, Except.bind, e3, e4, pure, Except.pure]
  have ne : ∀ (l : List Int) (M : Nat) (z : Int), 0 < M → lastN M (l ++ pyRange (z + 1) (z + 1 + n)) ≠ [] := by
    intro l M z hM hc
    have hlen := congrArg List.length hc
    simp [pyRange] at hlen
    omega
  refine .ok ⟨h.ids, rfl, h.nDim, h.left, h.right, h.ss, by simp only [h.qs], by have := h.pos; simp only; omega, ⟨N, g5, ?_⟩, g6, ?_⟩
  · rw [i1]; exact ne _ _ _ g1.pos
  · rw [i2]; exact ne _ _ _ g3.pos

theorem side_items {w : Nat} {a : MPSide K} {b : MDSide K} (h : Side w a b) : b.mp.items = a.mp.items.map ([·]) ∧ b.pi.items = a.pi.items.map ([·]) ∧
    ∃ rb, b.dm = [rb] ∧ rb.items = a.pi.items.map fun i => [if i = -1 then -1 else 0] := by
  obtain ⟨f, ha, hb⟩ := h
  obtain ⟨h1, h2⟩ := ha.holds
  refine ⟨?_, ?_, ?_⟩
  · rw [hb.mp.items, h1, gridCols, List.map_map]; rfl
  · rw [hb.pi.items, h2, gridCols, List.map_map]; rfl
  · obtain ⟨rb, hrb⟩ := List.length_eq_one_iff.mp hb.len
    obtain ⟨rb', g1, -, -, g2⟩ := hb.dm 0 (by omega)
    rw [hrb] at g1
    obtain rfl := Option.some.inj g1
    exact ⟨rb, hrb, by rw [g2, h2, List.map_map]; rfl⟩

theorem mapM_single {α : Type} (l : List α) : (l.map ([·])).mapM (pyGet · ((0 : Nat) : Int)) = .ok l := by
  rw [mapM_ok_iff, List.forall₂_map_left_iff]
  exact List.forall₂_same.mpr fun _ _ => rfl

theorem Twin.shows {w : Nat} {ids : List Nat} {p : ShiftingMP K} {o : MDObj K} {q : MDMP K} (h : Twin w ids p o q) : Spec.OneChannel p q := by
  obtain ⟨a1, a2, ra, a3, a4⟩ := side_items h.left
  obtain ⟨b1, b2, rb, b3, b4⟩ := side_items h.right
  refine ⟨a1, b1, a2, b2, ⟨ra, a3, a4⟩, ⟨rb, b3, b4⟩, ?_, ?_, ?_, h.ss, h.qs⟩
  · unfold MDMP.merged MP.merged
    rw [a1, b1, List.zipWith_map, List.map_zipWith]
    rfl
  · unfold MDMP.mergedIdx MDMP.whereLess MP.mergedIdx
    rw [a1, b1, a2, b2, List.zip_map, List.zip_map, List.zipWith_map, List.map_zipWith]
    rfl
  · unfold MDMP.mergedDims
    rw [h.nDim]
    show [0].mapM q.mergedDim = _
    have : q.mergedDim 0 = .ok ((MP.mergedIdx p.left.mp.items p.right.mp.items p.left.pi.items p.right.pi.items).map fun i => [if i = -1 then -1 else 0]) := by
      unfold MDMP.mergedDim MP.mergedIdx
      rw [a1, b1, mapM_single, mapM_single, a3, b3]
      simp only [bind, Except.bind, pure, Except.pure, show ∀ x : RB (List Int), pyGet [x] ((0 : Nat) : Int) = .ok x from fun _ => rfl, a4, b4]
      rw [List.zip_map, List.zipWith_map_right, List.map_zipWith]
      congr 2
      funext x y
      split <;> rfl
    rw [mapM_ok_iff]
    exact .cons this .nil

/-- New objects are in step after `initialise`. -/
theorem init (memF : Nat → List (Fl K)) (memI : Nat → List Int) (hF : ∀ n, (memF n).length = n) (hI : ∀ n, (memI n).length = n) (scale : ℚ) (h1 : 1 ≤ scale) (h2 : scale ≤ 2)
    (p : ShiftingMP K) (o : MDObj K) (hp : p.seriesShift = 0 ∧ p.queryShift = 0) (ho : o.st = none) (g1 : ∀ n, (o.memF n).length = n) (g2 : ∀ n, (o.memI n).length = n)
    (g3 : ∀ n, (o.memR n).length = n) (g4 : 1 ≤ o.scale) (g5 : o.scale ≤ 2) (ids : List Nat) (hids : ids.length = 1) (h w : Nat) (hw : 0 < w) (argsort : List (Fl K) → List Nat) (gops : GenOps G K) :
    Alike (Pair w ids) ((ShiftingMP.ops memF memI scale gops).initialise p ids.length h w) ((MDMP.ops argsort gops).initialise o ids.length h w) := by
  obtain ⟨a, e1, r1⟩ := ShiftingMP.initialise_inv (K := K) memF memI hF hI scale h1 h2 h w hw
  obtain ⟨b, e2, r2⟩ := MDMP.initialise_inv (K := K) o.memF o.memI o.memR g1 g2 g3 o.scale g4 g5 1 w hw
  have side : ∀ {s : MPSide K} {s' : MDSide K} {left : Bool}, s.Rep w (ShiftingMP.Want Seen.init left) →
      s'.Inv 1 w (fun _ c => (MSeen.init : MSeen K).sel left ((c + (MSeen.init : MSeen K).ss : Nat) : Int)) → Side w s s' := by
    rintro s s' left k1 ⟨F, k2, k3⟩
    have hF : ∀ k < 1, ∀ c < w, F k c = entry ((.pinf : Fl K), (-1 : Int)) := by
      intro k hk c hc
      obtain rfl : k = 0 := by omega
      rcases (k3 0 hk c hc).attained with ⟨d1, d2, d3⟩ | ⟨-, x, hx, -⟩
      · exact Prod.ext d1 (Prod.ext d2 (d3.trans (by simp [entry])))
      · exact absurd hx.1 (by simp [MSeen.init])
    refine ⟨fun _ => (.pinf, -1), ⟨k1.mp, k1.pi, k1.holds.congr fun _ _ => rfl⟩, k2.mp.congr fun k hk c hc => by rw [hF k hk c hc], k2.pi.congr fun k hk c hc => by rw [hF k hk c hc], k2.len, ?_⟩
    intro k hk
    obtain ⟨rb, d1, d2, d3, d4⟩ := k2.dm k hk
    exact ⟨rb, d1, d2, d3, d4.trans (List.map_congr_left fun c hc => by rw [hF k hk c (List.mem_range.mp hc)])⟩
  show Alike _ ((ShiftingMP.initialise memF memI scale h w).map _) (o.initialise ids.length w)
  unfold MDObj.initialise
  rw [if_neg (by omega), hids, Int.toNat_natCast, e1, e2, ho]
  refine .ok ⟨b, hids, rfl, r2.nDim, side r1.left r2.left, side r1.right r2.right, ?_, ?_, ?_, ⟨_, r1.rangeGood, ?_⟩, r2.rangeGood, ?_⟩
  · rw [r2.ss]; exact hp.1.symm
  · rw [r2.qs]; exact hp.2.symm
  · exact hp.2.ge
  · show a.range.items ≠ []
    rw [r1.range]
    intro hc
    have := congrArg List.length hc
    simp at this
    omega
  · rw [r2.range]
    intro hc
    have := congrArg List.length hc
    simp at this
    omega

/-- The two classes are in step. -/
theorem inStep (memF : Nat → List (Fl K)) (memI : Nat → List Int) (scale : ℚ) (argsort : List (Fl K) → List Nat) (has : ∀ l, IsArgsort l (argsort l)) (gops : GenOps G K) (h : Int) (w : Nat) :
    InStep h w False True True (fun ids ids' c c' => ids' = ids ∧ Pair w ids c c') (ShiftingMP.ops memF memI scale gops) (MDMP.ops argsort gops) :=
  InStep.of_same rfl (fun _ _ _ _ hp x vals h0 h1 hv => column hp argsort has x h0 h1 vals hv) (fun hf => hf.elim) (fun _ _ _ _ hp n hn => series hp n hn)
    (fun _ _ _ _ hp n hn => query hp n hn)

end OneChannel

/-- **C112, one channel, streams.** Two streaming calculations that differ in their consumers only, `ShiftingMatrixProfileLR` and `MultidimensionalMatrixProfileLR` objects with
one generator each: any generators, data and calls (whether they raise or not). Both raise the same exception or all consumers show the same. -/
theorem C112_one_channel_stream (memF : Nat → List (Fl K)) (memI : Nat → List Int) (hF : ∀ n, (memF n).length = n) (hI : ∀ n, (memI n).length = n) (scale : ℚ) (h1 : 1 ≤ scale)
    (h2 : scale ≤ 2) (argsort : List (Fl K) → List Nat) (has : ∀ l, IsArgsort l (argsort l)) (gops : GenOps G K) (gens : List ((Int → Int → Option Int → Except PyErr G) × Nat))
    (cs : List ((ShiftingMP K × MDObj K) × Nat)) (hcs : ∀ c ∈ cs, (c.1.1.seriesShift = 0 ∧ c.1.1.queryShift = 0) ∧ c.1.2.New) (needed : List Nat) (m sw : Int) (qw : Option Int) (nDim : Nat) (buffer : Option Int)
    (hs : m ≤ sw) (hq : m ≤ qw.getD sw) (calls : List (Streaming.Op K)) :
    Alike (List.Forall₂ fun x y => y.2 = x.2 ∧ ∃ q, y.1.st = some q ∧ OneChannel x.1 q)
      (streamAll (ShiftingMP.ops memF memI scale gops) gens (cs.map fun c => (c.1.1, [c.2])) needed m sw qw nDim buffer calls)
      (streamAll (MDMP.ops argsort gops) gens (cs.map fun c => (c.1.2, [c.2])) needed m sw qw nDim buffer calls) := by
  obtain ⟨h, hh⟩ := Int.eq_ofNat_of_zero_le (show 0 ≤ qw.getD sw - m + 1 by omega)
  obtain ⟨w, hw⟩ := Int.eq_ofNat_of_zero_le (show 0 ≤ sw - m + 1 by omega)
  refine (stream_inStep gens _ _ needed m sw qw nDim buffer calls hh.symm hw.symm (by omega) (OneChannel.inStep memF memI scale argsort has gops h w) ?_).mono
    fun a b hab => hab.imp fun x y ⟨e, q, hq'⟩ => ⟨e, q, hq'.st, hq'.shows⟩
  rw [List.forall₂_map_left_iff, List.forall₂_map_right_iff]
  refine List.forall₂_same.mpr fun c hc => Alike.mono ?_ fun _ _ hab => ⟨rfl, hab⟩
  obtain ⟨k1, k3, k4, k5, k6, k7, k2⟩ := hcs c hc
  exact OneChannel.init memF memI hF hI scale h1 h2 c.1.1 c.1.2 k1 k2 k3 k4 k5 k6 k7 [c.2] rfl h w (by omega) argsort gops

/-- **C112, one channel, batch.** The same for `AnytimeCalculator` and `Calculator` if only columns are calculated. -/
theorem C112_one_channel_batch (memF : Nat → List (Fl K)) (memI : Nat → List Int) (hF : ∀ n, (memF n).length = n) (hI : ∀ n, (memI n).length = n) (scale : ℚ) (h1 : 1 ≤ scale)
    (h2 : scale ≤ 2) (argsort : List (Fl K) → List Nat) (has : ∀ l, IsArgsort l (argsort l)) (gops : GenOps G K) (shuffle : List Int → List Int) (hsh : ∀ l, ∀ d ∈ shuffle l, d ∈ l)
    (gens : List ((Int → List (Fl K) → Option (List (Fl K)) → Except PyErr G) × Nat)) (cs : List ((ShiftingMP K × MDObj K) × Nat)) (hcs : ∀ c ∈ cs, (c.1.1.seriesShift = 0 ∧ c.1.1.queryShift = 0) ∧ c.1.2.New)
    (needed : List Nat) (m : Int) (series : List (List (Fl K))) (query : Option (List (List (Fl K)))) (buffer : Option Int) (hs : m ≤ Anytime.npCols series)
    (hq : m ≤ Anytime.npCols (query.getD series)) (calls : List Anytime.Op) (hk : ∀ o ∈ calls, ∃ lo hi stop, o = .columns lo hi stop) :
    Alike (List.Forall₂ fun x y => y.2 = x.2 ∧ ∃ q, y.1.st = some q ∧ OneChannel x.1 q)
      (batchAll (ShiftingMP.ops memF memI scale gops) shuffle gens (cs.map fun c => (c.1.1, [c.2])) needed m series query buffer calls)
      (batchAll (MDMP.ops argsort gops) shuffle gens (cs.map fun c => (c.1.2, [c.2])) needed m series query buffer calls) := by
  obtain ⟨h, hh⟩ := Int.eq_ofNat_of_zero_le (show 0 ≤ Anytime.npCols (query.getD series) - m + 1 by omega)
  obtain ⟨w, hw⟩ := Int.eq_ofNat_of_zero_le (show 0 ≤ Anytime.npCols series - m + 1 by omega)
  refine (batch_inStep shuffle hsh gens _ _ needed m series query buffer calls hh.symm hw.symm (by omega) (OneChannel.inStep memF memI scale argsort has gops h w) ?_ (fun o ho => by
    obtain ⟨a, b, c, rfl⟩ := hk o ho; trivial)).mono
    fun a b hab => hab.imp fun x y ⟨e, q, hq'⟩ => ⟨e, q, hq'.st, hq'.shows⟩
  rw [List.forall₂_map_left_iff, List.forall₂_map_right_iff]
  refine List.forall₂_same.mpr fun c hc => Alike.mono ?_ fun _ _ hab => ⟨rfl, hab⟩
  obtain ⟨k1, k3, k4, k5, k6, k7, k2⟩ := hcs c hc
  exact OneChannel.init memF memI hF hI scale h1 h2 c.1.1 c.1.2 k1 k2 k3 k4 k5 k6 k7 [c.2] rfl h w (by omega) argsort gops

end

/-! ### `ShiftingMatrixProfileLR` and `MatrixProfileLR` -/

section
variable [LinearOrder K]

/-- A `ShiftingMatrixProfileLR` and a `MatrixProfileLR` show the same. -/
structure Spec.SameProfile (p : ShiftingMP K) (q : MP K) : Prop where
  left : p.left.mp.items = q.left
  right : p.right.mp.items = q.right
  leftIdx : p.left.pi.items = q.leftIdx
  rightIdx : p.right.pi.items = q.rightIdx

namespace SameProfile

/-- The buffers of a side. -/
structure Side (a : MPSide K) (mp : List (Fl K)) (pi : List Int) : Prop where
  goodM : ∃ N, a.mp.Good N
  goodI : ∃ N, a.pi.Good N
  mp : a.mp.items = mp
  pi : a.pi.items = pi

/-- In step. -/
structure Pair (_ : List Nat) (p : ShiftingMP K) (q : MP K) : Prop where
  ss : p.seriesShift = 0
  qs : p.queryShift = 0
  range : p.range.items = q.range
  left : Side p.left q.left q.leftIdx
  right : Side p.right q.right q.rightIdx

theorem setSlice_alike {α : Type} {rb : RB α} {l : List α} (h : ∃ N, rb.Good N) (he : rb.items = l) (a b : Int) (vals : List α) :
    Alike (fun rb' l' => (∃ N, rb'.Good N) ∧ rb'.items = l') (rb.setSlice a b vals) (pyAssign l a b vals) := by
  subst he
  obtain ⟨N, h⟩ := h
  cases e : pyAssign rb.items a b vals with
  | error x =>
    have := RB.setSlice_spec rb h.wf a b vals
    rw [e] at this
    rw [show rb.setSlice a b vals = .error x from this]
    exact .err x
  | ok v =>
    obtain ⟨rb', e1, e2, e3⟩ := h.setSlice_ok e
    rw [e1]
    exact .ok ⟨⟨N, e2⟩, e3⟩

theorem update {a : MPSide K} {mp : List (Fl K)} {pi : List Int} (h : Side a mp pi) (vals : List (Fl K)) (idx : List Int) (i j : Int) :
    Alike (fun (a' : MPSide K) (r : List (Fl K) × List Int) => Side a' r.1 r.2) (a.update vals idx i j) (do
      let (m, x) ← updateProfile vals idx (pySlice mp i j) (pySlice pi i j)
      let l ← pyAssign mp i j m
      let li ← pyAssign pi i j x
      return (l, li)) := by
  unfold MPSide.update
  rw [h.mp, h.pi]
  refine (Alike.refl (updateProfile vals idx (pySlice mp i j) (pySlice pi i j))).bind fun r r' hr => ?_
  obtain rfl := hr
  exact (setSlice_alike h.goodM h.mp i j r.1).bind fun x y hx => (setSlice_alike h.goodI h.pi i j r.2).bind fun u v hu => .ok ⟨hx.1, hu.1, hx.2, hu.2⟩

theorem diagonal {ids : List Nat} {p : ShiftingMP K} {q : MP K} (h : Pair ids p q) (d : Int) (values : List (List (Fl K))) :
    Alike (Pair ids) (p.processDiagonal d values) (q.processDiagonal d values) := by
  unfold ShiftingMP.processDiagonal MP.processDiagonal
  refine (Alike.refl (pyGet values 0)).bind fun v v' hv => ?_
  obtain rfl := hv
  simp only [h.ss, h.qs, h.range, Int.sub_zero, Int.add_zero]
  by_cases hd : d ≥ 0
  · rw [if_pos hd, if_pos hd]
    have := (update h.left v (diagRows q.range d v.length) (diagCols d v.length).1 (diagCols d v.length).2).bind
      (f := fun l => .ok { p with left := l }) (g := fun r => .ok { q with left := r.1, leftIdx := r.2 }) (S := Pair ids)
      fun a b hab => .ok ⟨h.ss, h.qs, h.range, hab, h.right⟩
    simp only [bind_assoc, pure_bind, h.ss, h.qs] at this
    exact this
  · rw [if_neg hd, if_neg hd]
    have := (update h.right v (diagRows q.range d v.length) (diagCols d v.length).1 (diagCols d v.length).2).bind
      (f := fun l => .ok { p with right := l }) (g := fun r => .ok { q with right := r.1, rightIdx := r.2 }) (S := Pair ids)
      fun a b hab => .ok ⟨h.ss, h.qs, h.range, h.left, hab⟩
    simp only [bind_assoc, pure_bind, h.ss, h.qs] at this
    exact this

theorem inStep (memF : Nat → List (Fl K)) (memI : Nat → List Int) (scale : ℚ) (gops : GenOps G K) (h w : Int) :
    InStep h w True False False (fun ids ids' c c' => ids' = ids ∧ Pair ids c c') (ShiftingMP.ops memF memI scale gops) (MP.ops gops) :=
  InStep.of_same rfl (fun hf => hf.elim) (fun _ _ _ _ hp d vals _ _ _ => diagonal hp d vals) (fun hf => hf.elim) (fun hf => hf.elim)

theorem init (memF : Nat → List (Fl K)) (memI : Nat → List Int) (hF : ∀ n, (memF n).length = n) (hI : ∀ n, (memI n).length = n) (scale : ℚ) (h1 : 1 ≤ scale) (h2 : scale ≤ 2)
    (p : ShiftingMP K) (q : MP K) (hp : p.seriesShift = 0 ∧ p.queryShift = 0) (ids : List Nat) (h w : Nat) (hw : 0 < w) (gops : GenOps G K) :
    Alike (Pair ids) ((ShiftingMP.ops memF memI scale gops).initialise p ids.length h w) ((MP.ops gops).initialise q ids.length h w) := by
  obtain ⟨a, e1, r1⟩ := ShiftingMP.initialise_inv (K := K) memF memI hF hI scale h1 h2 h w hw
  obtain ⟨b, e2, r2⟩ := MP.initialise_rep (K := K) h w
  show Alike _ ((ShiftingMP.initialise memF memI scale h w).map _) (MP.initialise h w)
  rw [e1, e2]
  have hold : ∀ {l l' : List (Fl K)} {i i' : List Int} {f : Nat → Fl K × Int}, Holds w f l i → Holds w f l' i' → l = l' ∧ i = i' :=
    fun k1 k2 => ⟨k1.1.trans k2.1.symm, k1.2.trans k2.2.symm⟩
  obtain ⟨k1, k2⟩ := hold r1.left.holds r2.left
  obtain ⟨k3, k4⟩ := hold r1.right.holds r2.right
  exact .ok ⟨hp.1, hp.2, r1.range.trans r2.range.symm, ⟨⟨_, r1.left.mp⟩, ⟨_, r1.left.pi⟩, k1, k2⟩, ⟨⟨_, r1.right.mp⟩, ⟨_, r1.right.pi⟩, k3, k4⟩⟩

end SameProfile

/-- **C112, diagonals.** Two calculations with `AnytimeCalculator` or `Calculator` that differ in their consumers only, `ShiftingMatrixProfileLR` and `MatrixProfileLR` objects, in
which only diagonals are calculated: any generators and data, any calls (whether they raise or not). Both raise the same exception or all consumers show the same. -/
theorem C112_diagonals (memF : Nat → List (Fl K)) (memI : Nat → List Int) (hF : ∀ n, (memF n).length = n) (hI : ∀ n, (memI n).length = n) (scale : ℚ) (h1 : 1 ≤ scale)
    (h2 : scale ≤ 2) (gops : GenOps G K) (shuffle : List Int → List Int) (hsh : ∀ l, ∀ d ∈ shuffle l, d ∈ l)
    (gens : List ((Int → List (Fl K) → Option (List (Fl K)) → Except PyErr G) × Nat)) (cs : List ((ShiftingMP K × MP K) × List Nat))
    (hcs : ∀ c ∈ cs, c.1.1.seriesShift = 0 ∧ c.1.1.queryShift = 0) (needed : List Nat) (m : Int) (series : List (List (Fl K))) (query : Option (List (List (Fl K)))) (buffer : Option Int)
    (hs : m ≤ Anytime.npCols series) (hq : m ≤ Anytime.npCols (query.getD series)) (calls : List Anytime.Op) (hk : ∀ o ∈ calls, ∃ part ints, o = .diagonals part ints) :
    Alike (List.Forall₂ fun x y => y.2 = x.2 ∧ SameProfile x.1 y.1)
      (batchAll (ShiftingMP.ops memF memI scale gops) shuffle gens (cs.map fun c => (c.1.1, c.2)) needed m series query buffer calls)
      (batchAll (MP.ops gops) shuffle gens (cs.map fun c => (c.1.2, c.2)) needed m series query buffer calls) := by
  obtain ⟨h, hh⟩ := Int.eq_ofNat_of_zero_le (show 0 ≤ Anytime.npCols (query.getD series) - m + 1 by omega)
  obtain ⟨w, hw⟩ := Int.eq_ofNat_of_zero_le (show 0 ≤ Anytime.npCols series - m + 1 by omega)
  refine (batch_inStep shuffle hsh gens _ _ needed m series query buffer calls hh.symm hw.symm (by omega) (SameProfile.inStep memF memI scale gops h w) ?_ (fun o ho => by
    obtain ⟨a, b, rfl⟩ := hk o ho; trivial)).mono fun a b hab => hab.imp fun x y ⟨e, hp⟩ => ⟨e, hp.left.mp, hp.right.mp, hp.left.pi, hp.right.pi⟩
  rw [List.forall₂_map_left_iff, List.forall₂_map_right_iff]
  exact List.forall₂_same.mpr fun c hc => (SameProfile.init memF memI hF hI scale h1 h2 c.1.1 c.1.2 (hcs c hc) c.2 h w (by omega) gops).mono fun _ _ hab => ⟨rfl, hab⟩

end

/-! ### Examples -/

/-- The calls of `exStreamCalls`, with two generators for the same channel, and calls that raise at the end. -/
example (os : List (Streaming.Op ℚ)) := C112_one_channel_stream (fun n => List.replicate n .nan) (fun n => List.replicate n 77) (fun _ => List.length_replicate) (fun _ => List.length_replicate)
  2 (by norm_num) le_rfl exArgsort exArgsort_ok (Eucl.genOps zeroMem (fun x : ℚ => x)) [(Eucl.streaming zeroMem 2, 0), (Eucl.streaming zeroMem 1, 0)]
  [((exProfile, exMDObj ℚ), 1), ((exProfile, exMDObj ℚ), 0)] (by simp [exMDObj_new, exProfile]) [0, 1] 2 4 (some 3) 1 none (by norm_num) (by norm_num) (exStreamCalls ++ os)

set_option synthInstance.maxSize 1000 in
/-- What a one-channel `MultidimensionalMatrixProfileLR` shows after the calls of `exStreamCalls`: see the example of `exProfileRun`. -/
example : (streamAll (MDMP.ops exArgsort (Eucl.genOps zeroMem (fun x : ℚ => x))) [(Eucl.streaming zeroMem 2, 0)] [(exMDObj ℚ, [0])] [0] 2 4 (some 3) 1 none exStreamCalls).map
      (fun l => l.map fun c => c.1.st.map fun q => (q.left.mp.items, q.left.pi.items, q.left.dm.map (·.items), q.right.dm.map (·.items))) =
    .ok [some ([[.fin 17], [.fin 5], [.fin 8]], [[0], [1], [2]], [[[0], [0], [0]]], [[[-1], [-1], [-1]]])] := by
  decide +kernel

/-- Series 1 5 2 8, query 4 NaN 7, `m = 1`: columns 0 to 2, then all. -/
example := C112_one_channel_batch (fun n => List.replicate n .nan) (fun n => List.replicate n 77) (fun _ => List.length_replicate) (fun _ => List.length_replicate) 2 (by norm_num) le_rfl
  exArgsort exArgsort_ok (Eucl.genOps zeroMem (fun x : ℚ => x)) List.reverse (fun _ _ h => List.mem_reverse.mp h) [(fun m s q => Eucl.prepare zeroMem m.toNat s q, 0)]
  [((exProfile, exMDObj ℚ), 0)] (by simp [exMDObj_new, exProfile]) [0] 1 [[.fin 1, .fin 5, .fin 2, .fin 8]] (some [[.fin 4, .nan, .fin 7]]) none (by decide) (by decide)
  [.columns (fun _ => false) (some (.int 0)) (.int 2), .columns (fun _ => false) none (.float (.fin 1))] (by simp)

/-- The same data: half of the diagonals, then all. -/
example := C112_diagonals (fun n => List.replicate n .nan) (fun n => List.replicate n 77) (fun _ => List.length_replicate) (fun _ => List.length_replicate) 2 (by norm_num) le_rfl
  (Eucl.genOps zeroMem (fun x : ℚ => x)) List.reverse (fun _ _ h => List.mem_reverse.mp h) [(fun m s q => Eucl.prepare zeroMem m.toNat s q, 0)]
  [((exProfile, ⟨[], [], [], [], []⟩), [0])] (by simp [exProfile]) [0] 1 [[.fin 1, .fin 5, .fin 2, .fin 8]] (some [[.fin 4, .nan, .fin 7]]) none (by decide) (by decide)
  [.diagonals (fun _ => false) (.float (.fin (1 / 2))), .diagonals (fun _ => false) (.float (.fin 1))] (by simp)

/-- `C112_diagonals` does not extend to columns: series 1 5, query 4 NaN. `MatrixProfileLR` stores whatever the last column gave, `ShiftingMatrixProfileLR` passes over a
part with a NaN. -/
theorem C112_columns_differ :
    (batchAll (ShiftingMP.ops (fun n => List.replicate n .nan) (fun n => List.replicate n 77) 2 (Eucl.genOps zeroMem (fun x : ℚ => x))) List.reverse
      [(fun m s q => Eucl.prepare zeroMem m.toNat s q, 0)] [(exProfile, [0])] [0] 1 [[.fin 1, .fin 5]] (some [[.fin 4, .nan]]) none
      [.columns (fun _ => false) none (.float (.fin 1))]).map (fun l => l.map fun c => (c.1.left.mp.items, c.1.left.pi.items)) = .ok [([.fin 9, .pinf], [0, -1])] ∧
    (batchAll (MP.ops (Eucl.genOps zeroMem (fun x : ℚ => x))) List.reverse
      [(fun m s q => Eucl.prepare zeroMem m.toNat s q, 0)] [(⟨[], [], [], [], []⟩, [0])] [0] 1 [[.fin 1, .fin 5]] (some [[.fin 4, .nan]]) none
      [.columns (fun _ => false) none (.float (.fin 1))]).map (fun l => l.map fun c => (c.1.left, c.1.leftIdx)) = .ok [([.fin 9, .nan], [0, 1])] := by
  decide +kernel

end Verif
