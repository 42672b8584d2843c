import Verif.Lemmas.Mimic
import Verif.Props.Euclidean
import Verif.Props.RingBuffer

/-!
Euclidean generators on data moved by an isometry of the line.
-/

namespace Verif
open Spec
variable {α β K : Type}

/-! ### Ring buffers -/

theorem slice_map (f : α → β) (l : List α) (a b : Int) : pySlice (l.map f) a b = (pySlice l a b).map f := by
  unfold pySlice
  rw [List.length_map, List.map_drop, List.map_take]

theorem to_map (f : α → β) (l : List α) (b : Int) : pyTo (l.map f) b = (pyTo l b).map f := by
  unfold pyTo
  rw [List.length_map, List.map_take]

theorem from_map (f : α → β) (l : List α) (a : Int) : pyFrom (l.map f) a = (pyFrom l a).map f := by
  unfold pyFrom
  rw [List.length_map, List.map_drop]

theorem assign_map (f : α → β) (l : List α) (lo hi : Nat) (v : List α) : assignSlice (l.map f) lo hi (v.map f) = (assignSlice l lo hi v).map (List.map f) := by
  unfold assignSlice
  dsimp only
  rw [List.length_map]
  split
  · simp [Except.map, List.map_take, List.map_drop]
  · match v with
    | [] => rfl
    | [x] => simp [Except.map, List.map_take, List.map_drop]
    | _ :: _ :: _ => rfl

theorem pyAssign_map (f : α → β) (l : List α) (a b : Int) (v : List α) : pyAssign (l.map f) a b (v.map f) = (pyAssign l a b v).map (List.map f) := by
  unfold pyAssign
  rw [List.length_map, assign_map]

/-- The buffer with every element replaced. -/
def RB.mapAll (f : α → β) (rb : RB α) : RB β :=
  { lead := rb.lead, buf := rb.buf.map f, vmax := rb.vmax, vstart := rb.vstart, vlen := rb.vlen,
    view := match rb.view with
      | .window s n => .window s n
      | .detached d => .detached (d.map f) }

theorem RB.push_map (f : α → β) (rb : RB α) (v : List α) : (rb.mapAll f).push (v.map f) = (rb.push v).map fun r => (r.1.mapAll f, r.2) := by
  have full : ∀ (rb : RB α) (v : List α),
      (if (rb.mapAll f).vstart + (rb.mapAll f).vmax + (v.map f).length ≤ (rb.mapAll f).buf.length then do
        let win ← assignSlice (pySlice (rb.mapAll f).buf ((rb.mapAll f).vstart + (v.map f).length : Nat) (((rb.mapAll f).vstart + (v.map f).length : Nat) + (rb.mapAll f).vmax))
          (pyIdx (pySlice (rb.mapAll f).buf ((rb.mapAll f).vstart + (v.map f).length : Nat) (((rb.mapAll f).vstart + (v.map f).length : Nat) + (rb.mapAll f).vmax)).length (-((v.map f).length : Int)))
          (pySlice (rb.mapAll f).buf ((rb.mapAll f).vstart + (v.map f).length : Nat) (((rb.mapAll f).vstart + (v.map f).length : Nat) + (rb.mapAll f).vmax)).length (v.map f)
        let buf ← pyAssign (rb.mapAll f).buf ((rb.mapAll f).vstart + (v.map f).length : Nat) (((rb.mapAll f).vstart + (v.map f).length : Nat) + (rb.mapAll f).vmax) win
        return ({ rb.mapAll f with buf := buf, vstart := (rb.mapAll f).vstart + (v.map f).length, view := .window ((rb.mapAll f).vstart + (v.map f).length) (rb.mapAll f).vmax }, (v.map f).length)
      else if (v.map f).length < (rb.mapAll f).vmax then do
        let buf ← pyAssign (rb.mapAll f).buf 0 ((rb.mapAll f).vmax - (v.map f).length : Nat)
          (pySlice (rb.mapAll f).buf ((rb.mapAll f).vstart + (v.map f).length) ((rb.mapAll f).vstart + (rb.mapAll f).vmax))
        let buf ← pyAssign buf ((rb.mapAll f).vmax - (v.map f).length : Nat) (rb.mapAll f).vmax (v.map f)
        return ({ rb.mapAll f with buf := buf, vstart := 0, view := .window 0 (rb.mapAll f).vmax }, (v.map f).length)
      else do
        let buf ← pyAssign (rb.mapAll f).buf 0 (rb.mapAll f).vmax (pyFrom (v.map f) (-((rb.mapAll f).vmax : Int)))
        return ({ rb.mapAll f with buf := buf, vstart := 0, view := .window 0 (rb.mapAll f).vmax }, (v.map f).length) : Except PyErr (RB β × Nat)) =
      ((if rb.vstart + rb.vmax + v.length ≤ rb.buf.length then do
        let win ← assignSlice (pySlice rb.buf (rb.vstart + v.length : Nat) ((rb.vstart + v.length : Nat) + rb.vmax))
          (pyIdx (pySlice rb.buf (rb.vstart + v.length : Nat) ((rb.vstart + v.length : Nat) + rb.vmax)).length (-(v.length : Int)))
          (pySlice rb.buf (rb.vstart + v.length : Nat) ((rb.vstart + v.length : Nat) + rb.vmax)).length v
        let buf ← pyAssign rb.buf (rb.vstart + v.length : Nat) ((rb.vstart + v.length : Nat) + rb.vmax) win
        return ({ rb with buf := buf, vstart := rb.vstart + v.length, view := .window (rb.vstart + v.length) rb.vmax }, v.length)
      else if v.length < rb.vmax then do
        let buf ← pyAssign rb.buf 0 (rb.vmax - v.length : Nat) (pySlice rb.buf (rb.vstart + v.length) (rb.vstart + rb.vmax))
        let buf ← pyAssign buf (rb.vmax - v.length : Nat) rb.vmax v
        return ({ rb with buf := buf, vstart := 0, view := .window 0 rb.vmax }, v.length)
      else do
        let buf ← pyAssign rb.buf 0 rb.vmax (pyFrom v (-(rb.vmax : Int)))
        return ({ rb with buf := buf, vstart := 0, view := .window 0 rb.vmax }, v.length) : Except PyErr (RB α × Nat))).map fun r => (r.1.mapAll f, r.2) := by
    intro rb v
    unfold RB.mapAll
    simp only [List.length_map, slice_map, from_map]
    split
    · rw [assign_map]
      cases assignSlice (pySlice rb.buf (rb.vstart + v.length : Nat) ((rb.vstart + v.length : Nat) + rb.vmax))
          (pyIdx (pySlice rb.buf (rb.vstart + v.length : Nat) ((rb.vstart + v.length : Nat) + rb.vmax)).length (-(v.length : Int)))
          (pySlice rb.buf (rb.vstart + v.length : Nat) ((rb.vstart + v.length : Nat) + rb.vmax)).length v with
      | error e => rfl
      | ok win =>
        simp only [Except.map, bind, Except.bind, pyAssign_map]
        cases pyAssign rb.buf (rb.vstart + v.length : Nat) ((rb.vstart + v.length : Nat) + rb.vmax) win <;> rfl
    · split
      · rw [pyAssign_map]
        cases pyAssign rb.buf 0 (rb.vmax - v.length : Nat) (pySlice rb.buf (rb.vstart + v.length) (rb.vstart + rb.vmax)) with
        | error e => rfl
        | ok buf =>
          simp only [Except.map, bind, Except.bind, pyAssign_map]
          cases pyAssign buf (rb.vmax - v.length : Nat) rb.vmax v <;> rfl
      · rw [pyAssign_map]
        cases pyAssign rb.buf 0 rb.vmax (pyFrom v (-(rb.vmax : Int))) <;> rfl
  unfold RB.push
  rw [List.length_map]
  split
  · rfl
  · by_cases h : rb.vlen < rb.vmax
    · rw [if_pos (show (rb.mapAll f).vlen < (rb.mapAll f).vmax from h), if_pos h]
      have e : pyAssign (rb.mapAll f).buf ((rb.mapAll f).vlen : Int) ((rb.mapAll f).vlen + (min v.length ((rb.mapAll f).vmax - (rb.mapAll f).vlen) : Nat) : Int)
          (pyTo (v.map f) (min v.length ((rb.mapAll f).vmax - (rb.mapAll f).vlen) : Nat)) =
          (pyAssign rb.buf rb.vlen (rb.vlen + (min v.length (rb.vmax - rb.vlen) : Nat)) (pyTo v (min v.length (rb.vmax - rb.vlen) : Nat))).map (List.map f) := by
        rw [to_map]; exact pyAssign_map f _ _ _ _
      dsimp only
      rw [e]
      cases pyAssign rb.buf rb.vlen (rb.vlen + (min v.length (rb.vmax - rb.vlen) : Nat)) (pyTo v (min v.length (rb.vmax - rb.vlen) : Nat)) with
      | error e => rfl
      | ok buf =>
        by_cases hd : v.length = min v.length (rb.vmax - rb.vlen)
        · have hd' : v.length = min v.length ((rb.mapAll f).vmax - (rb.mapAll f).vlen) := hd
          simp only [Except.map, bind, Except.bind, pure, Except.pure, if_pos hd, if_pos hd', if_true]
          rfl
        · have hd' : ¬ v.length = min v.length ((rb.mapAll f).vmax - (rb.mapAll f).vlen) := hd
          simp only [Except.map, bind, Except.bind, pure, Except.pure, if_neg hd, if_neg hd', Bool.false_eq_true, if_false]
          have := full { rb with buf := buf, vlen := rb.vlen + min v.length (rb.vmax - rb.vlen), view := .window 0 (rb.vlen + min v.length (rb.vmax - rb.vlen)) }
            (pyFrom v (min v.length (rb.vmax - rb.vlen) : Nat))
          rw [← from_map] at this
          exact this
    · rw [if_neg (show ¬ (rb.mapAll f).vlen < (rb.mapAll f).vmax from h), if_neg h]
      simp only [bind, Except.bind, pure, Except.pure, Bool.false_eq_true, if_false]
      exact full rb v

theorem assign_null {v r : List α} (h : pyAssign [] 0 ((0 : Nat) : Int) v = .ok r) : r = [] := by
  have h : assignSlice [] 0 0 v = .ok r := h
  match v with
  | [] => cases h; rfl
  | [x] => cases h; rfl
  | _ :: _ :: _ => cases h

/-- A buffer of length 0. -/
structure RB.Null (rb : RB α) : Prop where
  vmax : rb.vmax = 0
  buf : rb.buf = []
  view : ∃ s n, rb.view = .window s n

theorem RB.Null.items {rb : RB α} (h : rb.Null) : rb.items = [] := by
  obtain ⟨s, n, e⟩ := h.view
  unfold RB.items
  rw [e]
  dsimp only
  rw [h.buf]
  simp [pySlice]

theorem RB.Null.push {rb : RB α} (h : rb.Null) {v : List α} {r : RB α × Nat} (hr : rb.push v = .ok r) : r.1.Null := by
  unfold RB.push at hr
  split at hr
  · cases hr; exact h
  · rename_i h0
    have h0 : 0 < v.length := Nat.pos_of_ne_zero h0
    simp only [h.vmax, Nat.not_lt_zero, if_false, bind, Except.bind, pure, Except.pure, Bool.false_eq_true, h.buf, List.length_nil] at hr
    rw [if_neg (by omega)] at hr
    split at hr
    · cases hr
    · rename_i buf hb
      cases hr
      exact ⟨rfl, assign_null hb, _, _, rfl⟩

/-- Buffers of the same shape with related contents; the memory outside of the window does not matter. -/
structure RB.Twin (T : α → β → Prop) (a : RB α) (b : RB β) : Prop where
  shape : b.mapAll (fun _ => ()) = a.mapAll (fun _ => ())
  wf : (a.WF ∧ b.WF) ∨ (a.Null ∧ b.Null)
  items : List.Forall₂ T a.items b.items

theorem RB.Twin.vmax {T : α → β → Prop} {a : RB α} {b : RB β} (h : a.Twin T b) : b.vmax = a.vmax :=
  (congrArg RB.vmax h.shape : (b.mapAll fun _ => ()).vmax = (a.mapAll fun _ => ()).vmax)

theorem RB.Twin.push {T : α → β → Prop} {a : RB α} {b : RB β} (h : a.Twin T b) {v : List α} {w : List β} (hv : List.Forall₂ T v w) :
    Alike (fun x y => x.1.Twin T y.1 ∧ y.2 = x.2) (a.push v) (b.push w) := by
  have e1 := RB.push_map (fun _ => ()) a v
  have e2 := RB.push_map (fun _ => ()) b w
  rw [h.shape, show w.map (fun _ => ()) = v.map (fun _ => ()) by simp [hv.length_eq], e1] at e2
  cases ha : a.push v with
  | error e =>
    rw [ha] at e2
    cases hb : b.push w with
    | error e' => rw [hb] at e2; cases e2; exact .err _
    | ok r => rw [hb] at e2; cases e2
  | ok r =>
    rw [ha] at e2
    cases hb : b.push w with
    | error e' => rw [hb] at e2; cases e2
    | ok r' =>
      rw [hb] at e2
      have e2 := Except.ok.inj e2
      have s1 : r'.1.mapAll (fun _ => ()) = r.1.mapAll (fun _ => ()) := (congrArg Prod.fst e2).symm
      have s2 : r'.2 = r.2 := (congrArg Prod.snd e2).symm
      refine .ok ⟨?_, s2⟩
      rcases h.wf with ⟨w1, w2⟩ | ⟨n1, n2⟩
      · have f1 : ¬ a.PushFails v := fun hf => by rw [a.push_fails w1 v hf] at ha; cases ha
        have f2 : ¬ b.PushFails w := fun hf => by rw [b.push_fails w2 w hf] at hb; cases hb
        obtain ⟨x, x1, x2, x3, -⟩ := a.push_spec w1 v f1
        obtain ⟨y, y1, y2, y3, -⟩ := b.push_spec w2 w f2
        rw [ha] at x1
        rw [hb] at y1
        cases x1
        cases y1
        refine ⟨s1, .inl ⟨x2, y2⟩, ?_⟩
        rw [x3, y3, h.vmax]
        have := List.rel_append h.items hv
        unfold lastN
        rw [← this.length_eq]
        exact List.forall₂_drop _ this
      · exact ⟨s1, .inr ⟨n1.push ha, n2.push hb⟩, by rw [(n1.push ha).items, (n2.push hb).items]; exact .nil⟩

theorem RB.mkEmpty_twin {T : α → β → Prop} (lead : List Nat) (n : Nat) (x : List α) (y : List β) (hx : n ≤ x.length) (hy : y.length = x.length) (h0 : n = 0 → x = []) :
    (RB.mkEmpty lead n x).Twin T (RB.mkEmpty lead n y) := by
  refine ⟨?_, ?_, by rw [RB.mkEmpty_items, RB.mkEmpty_items]; exact .nil⟩
  · unfold RB.mkEmpty RB.mapAll
    simp [hy]
  · rcases Nat.eq_zero_or_pos n with h | h
    · have e := h0 h
      subst e
      have e : y = [] := List.length_eq_zero_iff.mp (by simpa using hy)
      exact .inr ⟨⟨h, rfl, 0, 0, rfl⟩, ⟨h, e, 0, 0, rfl⟩⟩
    · exact .inl ⟨RB.mkEmpty_wf lead n x h hx, RB.mkEmpty_wf lead n y h (by omega)⟩

/-! ### States of Euclidean generators -/

/-- A point and what it is moved to. -/
def Moved [Field K] (a b : K) (x y : Fl K) : Prop := ∃ u, x = .fin u ∧ y = .fin (a * u + b)

theorem moved_lists [Field K] {a b : K} {s t : List (Fl K)} (h : List.Forall₂ (Moved a b) s t) : ∃ l : List K, s = l.map .fin ∧ t = (l.map fun x => a * x + b).map .fin := by
  induction h with
  | nil => exact ⟨[], rfl, rfl⟩
  | cons h hs ih =>
    obtain ⟨u, rfl, rfl⟩ := h
    obtain ⟨l, rfl, rfl⟩ := ih
    exact ⟨u :: l, rfl, rfl⟩

/-- States that differ in that the points of one are those of the other moved. -/
structure ColCache.Twin [Field K] (a b : K) (g g' : ColCache K) : Prop where
  m : g'.m = g.m
  series : g.series.Twin (Moved a b) g'.series
  query : Option.Rel (RB.Twin (Moved a b)) g.query g'.query
  firstRow : g'.firstRow = g.firstRow
  backlog : g'.backlog = g.backlog
  prevIdx : g'.prevIdx = g.prevIdx
  prev : g'.prev = g.prev

section
variable [Field K] {a b : K} {g g' : ColCache K}

theorem ColCache.Twin.s (h : g.Twin a b g') : ∃ l : List K, g.s = l.map .fin ∧ g'.s = (l.map fun x => a * x + b).map .fin := moved_lists h.series.items

theorem ColCache.Twin.q (h : g.Twin a b g') : ∃ l : List K, g.q = l.map .fin ∧ g'.q = (l.map fun x => a * x + b).map .fin := by
  refine moved_lists ?_
  unfold ColCache.q
  have := h.query
  cases hq : g.query with
  | none =>
    rw [hq] at this
    generalize g'.query = y at this
    cases this
    exact h.series.items
  | some x =>
    rw [hq] at this
    generalize g'.query = y at this
    cases this with
    | some hx => exact hx.items

variable [LinearOrder K]

theorem sqDist_moved (ha : a ^ 2 = 1) (s q : List K) :
    Eucl.sqDist ((s.map fun x => a * x + b).map .fin) ((q.map fun x => a * x + b).map .fin) = Eucl.sqDist (s.map .fin) (q.map .fin) := by
  rcases Nat.eq_zero_or_pos q.length with h0 | h0
  · unfold Eucl.sqDist slidingWindows
    simp [h0]
  rcases Nat.lt_or_ge s.length q.length with h1 | h1
  · unfold Eucl.sqDist slidingWindows
    simp [h1]
  rw [Eucl.sqDist_spec _ _ (by simpa using h0) (by simpa using h1), Eucl.sqDist_spec _ _ h0 h1, List.length_map, windows_map, List.map_map]
  congr 1
  refine List.map_congr_left fun w _ => ?_
  dsimp only [Function.comp]
  congr 2
  unfold pairSum
  rw [List.zipWith_map]
  congr 2
  funext x y
  have : (a * x + b - (a * y + b)) ^ 2 = a ^ 2 * (x - y) ^ 2 := by ring
  rw [this, ha, one_mul]

theorem term_moved (ha : a ^ 2 = 1) (x y : K) : Eucl.term (.fin (a * x + b)) (.fin (a * y + b)) = Eucl.term (.fin x) (.fin y) := by
  unfold Eucl.term
  rw [Fl.sub_fin, Fl.sub_fin, Fl.square_fin, Fl.square_fin]
  have : (a * x + b - (a * y + b)) ^ 2 = a ^ 2 * (x - y) ^ 2 := by ring
  rw [this, ha, one_mul]

omit [LinearOrder K] in
theorem pyGet_moved (l : List K) (i : Int) : Alike (Moved a b) (pyGet (l.map Fl.fin) i) (pyGet ((l.map fun x => a * x + b).map Fl.fin) i) := by
  refine pyGet_pair ?_ i
  induction l with
  | nil => exact .nil
  | cons x l ih => exact .cons ⟨x, rfl, rfl⟩ ih

theorem refresh_twin (ha : a ^ 2 = 1) (mem : Nat → List (Fl K)) (h : g.Twin a b g') :
    Alike (fun x y => x.1.Twin a b y.1 ∧ y.2 = x.2) (g.refreshFirstRow mem Eucl.sqDist) (g'.refreshFirstRow mem Eucl.sqDist) := by
  obtain ⟨s, s1, s2⟩ := h.s
  obtain ⟨q, q1, q2⟩ := h.q
  unfold ColCache.refreshFirstRow
  rw [h.firstRow, h.m, h.backlog, h.series.vmax]
  cases g.firstRow with
  | none =>
    dsimp only
    have e : Eucl.sqDist g'.s (pySlice g'.q 0 g.m) = Eucl.sqDist g.s (pySlice g.q 0 g.m) := by
      rw [s1, s2, q1, q2, slice_map, slice_map, slice_map]
      exact sqDist_moved ha _ _
    rw [e]
    refine (Alike.refl _).bind fun row row' e => ?_
    subst e
    refine (Alike.refl _).bind fun fr fr' e => ?_
    subst e
    exact .ok ⟨⟨rfl, h.series, h.query, rfl, rfl, h.prevIdx, h.prev⟩, rfl⟩
  | some fr =>
    dsimp only
    split
    · have e : Eucl.sqDist (pyFrom g'.s (-((g.backlog : Int) + g.m - 1))) (pySlice g'.q 0 g.m) = Eucl.sqDist (pyFrom g.s (-((g.backlog : Int) + g.m - 1))) (pySlice g.q 0 g.m) := by
        rw [s1, s2, q1, q2, slice_map, slice_map, slice_map, from_map, from_map, from_map]
        exact sqDist_moved ha _ _
      rw [e]
      refine (Alike.refl _).bind fun row row' e => ?_
      subst e
      refine (Alike.refl _).bind fun fr fr' e => ?_
      subst e
      exact .ok ⟨⟨rfl, h.series, h.query, rfl, rfl, h.prevIdx, h.prev⟩, rfl⟩
    · exact .ok ⟨h, rfl⟩

theorem column_twin (ha : a ^ 2 = 1) (mem : Nat → List (Fl K)) (h : g.Twin a b g') (c : Int) :
    Alike (fun x y => x.1.Twin a b y.1 ∧ x.2 = y.2) (g.column mem Eucl.sqDist Eucl.term c) (g'.column mem Eucl.sqDist Eucl.term c) := by
  unfold ColCache.column
  rw [h.prevIdx]
  split
  · have e : Eucl.sqDist g'.q (pySlice g'.s c (c + g'.m)) = Eucl.sqDist g.q (pySlice g.s c (c + g.m)) := by
      obtain ⟨s, s1, s2⟩ := h.s
      obtain ⟨q, q1, q2⟩ := h.q
      rw [s1, s2, q1, q2, h.m, slice_map, slice_map, slice_map]
      exact sqDist_moved ha _ _
    rw [e]
    refine (Alike.refl _).bind fun v v' e => ?_
    subst e
    exact .ok ⟨⟨h.m, h.series, h.query, h.firstRow, h.backlog, rfl, rfl⟩, rfl⟩
  · refine (refresh_twin ha mem h).bind fun r r' hr => ?_
    obtain ⟨g, fr⟩ := r
    obtain ⟨g', fr'⟩ := r'
    obtain ⟨h, rfl⟩ : g.Twin a b g' ∧ fr' = fr := hr
    obtain ⟨s, s1, s2⟩ := h.s
    obtain ⟨q, q1, q2⟩ := h.q
    dsimp only
    rw [s1, s2, q1, q2, h.m, h.prev]
    refine (pyGet_moved s _).bind fun x x' hx => (pyGet_moved s _).bind fun y y' hy => ?_
    obtain ⟨x, rfl, rfl⟩ := hx
    obtain ⟨y, rfl, rfl⟩ := hy
    have e : ∀ (z : K) (l : List K), ((l.map fun x => a * x + b).map Fl.fin).map (Eucl.term (.fin (a * z + b))) = (l.map Fl.fin).map (Eucl.term (.fin z)) := by
      intro z l
      rw [List.map_map, List.map_map, List.map_map]
      exact List.map_congr_left fun u _ => term_moved ha z u
    simp only [to_map, from_map, e, List.length_map]
    refine (Alike.refl _).bind fun v1 v e => ?_
    subst e
    refine (Alike.refl _).bind fun v2 v e => ?_
    subst e
    refine (Alike.refl _).bind fun v3 v e => ?_
    subst e
    refine (Alike.refl _).bind fun v4 v e => ?_
    subst e
    refine (Alike.refl _).bind fun v5 v e => ?_
    subst e
    exact .ok ⟨⟨rfl, h.series, h.query, h.firstRow, h.backlog, rfl, rfl⟩, rfl⟩

theorem zip_moved (ha : a ^ 2 = 1) (x y : List K) :
    (npZip Fl.sub ((x.map fun z => a * z + b).map Fl.fin) ((y.map fun z => a * z + b).map Fl.fin)).map (List.map Fl.square) =
      (npZip Fl.sub (x.map Fl.fin) (y.map Fl.fin)).map (List.map Fl.square) := by
  have e : ∀ x y : K, Fl.square (Fl.sub (.fin (a * x + b)) (.fin (a * y + b))) = Fl.square (Fl.sub (.fin x) (.fin y)) := term_moved ha
  unfold npZip
  simp only [List.length_map]
  split
  · simp only [Except.map, List.map_zipWith, List.zipWith_map, e]
  · match x, y with
    | [], [] => rfl
    | [], [y] => rfl
    | [], _ :: _ :: _ => rfl
    | [x], y => simp only [Except.map, List.map_cons, List.map_nil, List.map_map]; congr 1; exact List.map_congr_left fun u _ => e x u
    | _ :: _ :: _, [] => rfl
    | x1 :: x2 :: x, [y] => simp only [Except.map, List.map_cons, List.map_nil, List.map_map, e]; congr 3; exact List.map_congr_left fun u _ => e u y
    | _ :: _ :: _, _ :: _ :: _ => rfl

theorem diagonal_twin (ha : a ^ 2 = 1) (sq : K → K) (h : g.Twin a b g') (d : Int) : Eucl.calcDiagonal sq g' d = Eucl.calcDiagonal sq g d := by
  obtain ⟨s, s1, s2⟩ := h.s
  obtain ⟨q, q1, q2⟩ := h.q
  have e : ∀ dl, (g'.diagPoints Fl.sub dl d).map (List.map Fl.square) = (g.diagPoints Fl.sub dl d).map (List.map Fl.square) := by
    intro dl
    unfold ColCache.diagPoints
    rw [s1, s2, q1, q2]
    split
    · simp only [to_map, slice_map]
      exact zip_moved ha _ _
    · simp only [to_map, slice_map]
      exact zip_moved ha _ _
  have hl1 : g'.q.length = g.q.length := by rw [q1, q2]; simp
  have hl2 : g'.s.length = g.s.length := by rw [s1, s2]; simp
  unfold Eucl.calcDiagonal
  dsimp only
  rw [hl1, hl2, h.m]
  have e := e (diagLength g.q.length g.s.length d)
  cases h1 : g.diagPoints Fl.sub (diagLength g.q.length g.s.length d) d with
  | error x =>
    rw [h1] at e
    cases h2 : g'.diagPoints Fl.sub (diagLength g.q.length g.s.length d) d with
    | error y => rw [h2] at e; cases e; rfl
    | ok y => rw [h2] at e; cases e
  | ok x =>
    rw [h1] at e
    cases h2 : g'.diagPoints Fl.sub (diagLength g.q.length g.s.length d) d with
    | error y => rw [h2] at e; cases e
    | ok y =>
      rw [h2] at e
      have e : y.map Fl.square = x.map Fl.square := Except.ok.inj e
      simp only [bind, Except.bind, e]

omit [LinearOrder K] in
theorem appendSeries_twin (h : g.Twin a b g') {v w : List (Fl K)} (hv : List.Forall₂ (Moved a b) v w) :
    Alike (ColCache.Twin a b) (Eucl.appendSeries g v) (Eucl.appendSeries g' w) := by
  unfold Eucl.appendSeries
  rw [← hv.length_eq]
  split
  · exact .ok h
  · refine Alike.bind (R := fun x y => x.1.Twin a b y.1 ∧ y.2 = x.2) ?_ fun r r' hr => ?_
    · unfold ColCache.pushSeries
      refine (h.series.push hv).bind fun r r' hr => ?_
      obtain ⟨s, d⟩ := r
      obtain ⟨s', d'⟩ := r'
      obtain ⟨hs, rfl⟩ : s.Twin (Moved a b) s' ∧ d' = d := hr
      refine .ok ⟨⟨h.m, hs, h.query, h.firstRow, ?_, h.prevIdx, h.prev⟩, ?_⟩
      · dsimp only
        rw [h.backlog, hv.length_eq]
      · dsimp only
        rw [hv.length_eq, hs.items.length_eq, hs.vmax]
    · obtain ⟨g, d, n⟩ := r
      obtain ⟨g', d', n'⟩ := r'
      obtain ⟨h, e⟩ : g.Twin a b g' ∧ (d', n') = (d, n) := hr
      cases e
      refine .ok ?_
      unfold ColCache.finishSeries
      have hq := h.query
      dsimp only
      cases e1 : g.query with
      | none =>
        rw [e1] at hq
        cases e2 : g'.query with
        | some x => rw [e2] at hq; cases hq
        | none => exact ⟨h.m, h.series, .none, by dsimp only; rw [h.firstRow], h.backlog, rfl, h.prev⟩
      | some x =>
        rw [e1] at hq
        cases e2 : g'.query with
        | none => rw [e2] at hq; cases hq
        | some y =>
          rw [e2] at hq
          exact ⟨h.m, h.series, hq, h.firstRow, h.backlog, by dsimp only; rw [h.prevIdx], h.prev⟩

omit [LinearOrder K] in
theorem appendQuery_twin (h : g.Twin a b g') {v w : List (Fl K)} (hv : List.Forall₂ (Moved a b) v w) :
    Alike (ColCache.Twin a b) (Eucl.appendQuery g v) (Eucl.appendQuery g' w) := by
  unfold Eucl.appendQuery
  have hq := h.query
  cases e1 : g.query with
  | none =>
    rw [e1] at hq
    cases e2 : g'.query with
    | some x => rw [e2] at hq; cases hq
    | none => exact .err _
  | some x =>
    rw [e1] at hq
    cases e2 : g'.query with
    | none => rw [e2] at hq; cases hq
    | some y =>
      rw [e2] at hq
      have hq : x.Twin (Moved a b) y := by cases hq; assumption
      dsimp only
      rw [← hv.length_eq]
      split
      · exact .ok h
      · unfold ColCache.pushQuery
        refine (hq.push hv).bind fun r r' hr => ?_
        obtain ⟨s, d⟩ := r
        obtain ⟨s', d'⟩ := r'
        obtain ⟨hs, rfl⟩ : s.Twin (Moved a b) s' ∧ d' = d := hr
        exact .ok ⟨h.m, h.series, .some hs, by dsimp only; rw [h.firstRow], h.backlog, rfl, h.prev⟩

theorem Eucl.column_pair (mem : Nat → List (Fl K)) (sq : K → K) {a b : K} (ha : a ^ 2 = 1) {g g' : ColCache K} (h : g.Twin a b g') (c : Int) :
    Alike (fun x y => x.1.Twin a b y.1 ∧ x.2 = y.2) (Eucl.calcColumn mem sq g c) (Eucl.calcColumn mem sq g' c) := by
  unfold Eucl.calcColumn
  refine (column_twin ha mem h c).bind fun r r' hr => ?_
  obtain ⟨g, v⟩ := r
  obtain ⟨g', v'⟩ := r'
  obtain ⟨h, rfl⟩ : g.Twin a b g' ∧ v = v' := hr
  exact .ok ⟨h, rfl⟩

/-- A Euclidean generator cannot tell moved data from the original. -/
theorem Eucl.answers (mem : Nat → List (Fl K)) (sq : K → K) (a b : Nat → K) (ha : ∀ ch, a ch ^ 2 = 1) (ht w : Int) :
    Answers ht w (fun ch => ColCache.Twin (a ch) (b ch)) (Eucl.genOps mem sq) (Eucl.genOps mem sq) where
  column ch g g' h c _ _ := Eucl.column_pair mem sq (ha ch) h c
  diagonal ch g g' h d _ _ := by
    show Alike _ ((Eucl.calcDiagonal sq g d).map fun v => (g, v)) ((Eucl.calcDiagonal sq g' d).map fun v => (g', v))
    rw [diagonal_twin (ha ch) sq h d]
    exact (Alike.refl _).map fun v v' e => ⟨h, e⟩

theorem Eucl.mimics (mem : Nat → List (Fl K)) (sq : K → K) (a b : Nat → K) (ha : ∀ ch, a ch ^ 2 = 1) (m w : Int) :
    Mimics m w (fun _ _ => True) (fun ch => List.Forall₂ (Moved (a ch) (b ch))) (fun _ _ ch => ColCache.Twin (a ch) (b ch)) (Eucl.genOps mem sq) (Eucl.genOps mem sq) where
  column _ _ ch g g' _ h c _ _ _ := Eucl.column_pair mem sq (ha ch) h c
  series _ _ ch g g' h v w hv := appendSeries_twin h hv
  query _ _ ch g g' _ h v w hv := appendQuery_twin h hv

theorem capacity_zero (s : ℚ) : RB.capacity s 0 = 0 := by simp [RB.capacity]

theorem capacity_one (n : Nat) : RB.capacity 1 n = n := by simp [RB.capacity]

theorem Eucl.streaming_twin (mem : Nat → List (Fl K)) (hmem : ∀ n, (mem n).length = n) {scale : ℚ} (hs : 1 ≤ scale) (a b : K) (m sw : Int) (qw : Option Int) :
    Alike (ColCache.Twin a b) (Eucl.streaming mem scale m sw qw) (Eucl.streaming mem scale m sw qw) := by
  have e : ∀ n : Nat, (RB.mkEmpty [] n (mem (RB.capacity scale n))).Twin (Moved a b) (RB.mkEmpty [] n (mem (RB.capacity scale n))) := fun n =>
    RB.mkEmpty_twin [] n _ _ (by rw [hmem]; exact capacity_ge scale n hs) rfl fun h => by
      subst h
      exact List.length_eq_zero_iff.mp (by rw [hmem, capacity_zero])
  refine .ok ⟨rfl, e _, ?_, rfl, rfl, rfl, rfl⟩
  unfold Eucl.prepareStreaming
  cases qw with
  | none => exact .none
  | some q => exact .some (e _)

omit [LinearOrder K] in
theorem Eucl.prepare_twin (mem : Nat → List (Fl K)) (hmem : ∀ n, (mem n).length = n) (a b : K) (m : Int) {s s' : List (Fl K)} (hs : List.Forall₂ (Moved a b) s s')
    {q q' : Option (List (Fl K))} (hq : Option.Rel (List.Forall₂ (Moved a b)) q q') : Alike (ColCache.Twin a b) (Eucl.prepare mem m s q) (Eucl.prepare mem m s' q') := by
  have e : ∀ s s' : List (Fl K), List.Forall₂ (Moved a b) s s' → Alike (RB.Twin (Moved a b)) (RB.init (some ([], s)) none true (mem (RB.capacity 1 s.length)))
      (RB.init (some ([], s')) none true (mem (RB.capacity 1 s'.length))) := by
    intro s s' h
    unfold RB.init RB.pushArr
    dsimp only
    rw [if_neg (by simp [RB.mkEmpty]), if_neg (by simp [RB.mkEmpty]), ← h.length_eq]
    refine (RB.Twin.push (RB.mkEmpty_twin (T := Moved a b) [] s.length _ _ (by rw [hmem, capacity_one]) rfl fun h => ?_) h).bind fun r r' hr => .ok hr.1
    exact List.length_eq_zero_iff.mp (by rw [hmem, capacity_one, h])
  unfold Eucl.prepare
  refine (e s s' hs).bind fun x x' hx => ?_
  cases hq with
  | none => exact .ok ⟨rfl, hx, .none, rfl, rfl, rfl, rfl⟩
  | some h => exact (e _ _ h).bind fun y y' hy => .ok ⟨rfl, hx, .some hy, rfl, rfl, rfl, rfl⟩

end

end Verif
