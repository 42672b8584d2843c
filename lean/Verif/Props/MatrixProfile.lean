import Verif.Lemmas.Profile

/-!
# `MatrixProfileLR`: C38, C39, C40
-/

namespace Verif
open Spec
variable {K : Type} [LinearOrder K]

namespace MP

/-- The calls of a history made on the model (shifts are not supported by this class). -/
def deliver (p : MP K) : Delivery K → Except PyErr (MP K)
  | .diag d vals => p.processDiagonal d [vals]
  | .column c vals => p.processColumn c [vals]
  | _ => .error .notImplemented

/-- A history on the model. -/
def run (p : MP K) (ds : List (Delivery K)) : Except PyErr (MP K) := ds.foldlM deliver p

/-- The profiles hold `l c` and `r c`. -/
structure Rep (p : MP K) (h w : Nat) (l r : Nat → Fl K × Int) : Prop where
  range : p.range = (List.range (max h w)).map fun i : Nat => ((i + 0 : Nat) : Int)
  left : Holds w l p.left p.leftIdx
  right : Holds w r p.right p.rightIdx

omit [LinearOrder K] in
theorem initialise_rep (h w : Nat) : ∃ p : MP K, initialise (h : Int) (w : Int) = .ok p ∧ p.Rep h w (fun _ => (.pinf, -1)) (fun _ => (.pinf, -1)) := by
  refine ⟨_, by unfold initialise; rw [if_neg (by omega)], ?_, ?_, ?_⟩
  · have : (max (w : Int) (h : Int) - 0).toNat = max h w := by omega
    simp only [pyRange, this]
    apply List.map_congr_left
    intro k _
    simp
  · exact Holds.of_get (by simp) (by simp) fun c hc => by simp [hc]
  · exact Holds.of_get (by simp) (by simp) fun c hc => by simp [hc]

theorem processDiagonal_rep {p : MP K} {h w : Nat} {l r l' r' : Nat → Fl K × Int} (hp : p.Rep h w l r) (d : Int) (vals : List (Fl K))
    (hv : (Delivery.diag d vals).Valid h w)
    (hl : ∀ c < w, l' c = (entriesFor ((Delivery.diag d vals).cells 0 0) c true).foldl pick (l c))
    (hr : ∀ c < w, r' c = (entriesFor ((Delivery.diag d vals).cells 0 0) c false).foldl pick (r c)) :
    ∃ p', p.processDiagonal d [vals] = .ok p' ∧ p'.Rep h w l' r' := by
  obtain ⟨hv1, hv2⟩ := hv
  obtain ⟨hi, hrow⟩ := diagRows_ok p.range (max h w) 0 hp.range d vals.length (by omega)
  have hent : ∀ (c : Nat) (left : Bool), entriesFor ((Delivery.diag d vals).cells 0 0) c left =
      if d.toNat ≤ c ∧ decide (0 ≤ d) = left then
        (vals[c - d.toNat]?.map fun v => (v, (((-d).toNat + (c - d.toNat) : Nat) : Int))).toList else [] := by
    intro c left
    have := entriesFor_diag d vals 0 0 c left
    simpa using this
  have hget : pyGet [vals] 0 = .ok vals := rfl
  by_cases hd : 0 ≤ d
  · have hl2 : ∀ (k : Nat) (v : Fl K) (i : Int), vals[k]? = some v → (diagRows p.range d vals.length)[k]? = some i →
        l' (d.toNat + k) = pick (l (d.toNat + k)) (v, i) := by
      intro k v i h1 h2
      have hk : k < vals.length := (List.getElem?_eq_some_iff.mp h1).1
      rw [hl _ (by omega), hent, if_pos ⟨by omega, by simp [hd]⟩, hrow k i h2]
      simp [h1]
    have hl3 : ∀ c < w, ¬ (d.toNat ≤ c ∧ c < d.toNat + vals.length) → l' c = l c := by
      intro c hc hn
      rw [hl c hc, hent]
      split
      · rename_i h1
        have : vals[c - d.toNat]? = none := by simp; omega
        simp [this]
      · rfl
    obtain ⟨u, hu, mp', pi', h1, h2, h3⟩ := hp.left.update (f' := l') vals _ d.toNat vals.length rfl hi (by omega) hl2 hl3
    refine ⟨{ p with left := mp', leftIdx := pi' }, ?_, hp.range, h3, ?_⟩
    · unfold processDiagonal
      simp only [hget, bind, Except.bind, diagCols_ok, ge_iff_le, hd, if_true, hu, h1, h2, pure, Except.pure]
    · refine hp.right.congr fun c hc => ?_
      rw [hr c hc, hent, if_neg (by simp [hd])]; rfl
  · have hl2 : ∀ (k : Nat) (v : Fl K) (i : Int), vals[k]? = some v → (diagRows p.range d vals.length)[k]? = some i →
        r' (d.toNat + k) = pick (r (d.toNat + k)) (v, i) := by
      intro k v i h1 h2
      have hk : k < vals.length := (List.getElem?_eq_some_iff.mp h1).1
      rw [hr _ (by omega), hent, if_pos ⟨by omega, by simpa using hd⟩, hrow k i h2]
      simp [h1]
    have hl3 : ∀ c < w, ¬ (d.toNat ≤ c ∧ c < d.toNat + vals.length) → r' c = r c := by
      intro c hc hn
      rw [hr c hc, hent]
      split
      · rename_i h1
        have : vals[c - d.toNat]? = none := by simp; omega
        simp [this]
      · rfl
    obtain ⟨u, hu, mp', pi', h1, h2, h3⟩ := hp.right.update (f' := r') vals _ d.toNat vals.length rfl hi (by omega) hl2 hl3
    refine ⟨{ p with right := mp', rightIdx := pi' }, ?_, hp.range, ?_, h3⟩
    · unfold processDiagonal
      simp only [hget, bind, Except.bind, diagCols_ok, ge_iff_le, hd, if_false, hu, h1, h2, pure, Except.pure]
    · refine hp.left.congr fun c hc => ?_
      rw [hl c hc, hent, if_neg (by simp; omega)]; rfl

/-- A column overwrites the entries by the minima of its two parts. -/
theorem processColumn_rep {p : MP K} {h w : Nat} {l r : Nat → Fl K × Int} (hp : p.Rep h w l r) (c : Nat) (vals : List (Fl K))
    (hv : (Delivery.column c vals).Valid h w) (hn : (Delivery.column c vals).ColumnClean) :
    ∃ p' l' r', p.processColumn c [vals] = .ok p' ∧ p'.Rep h w l' r' ∧ (∀ c' ≠ c, l' c' = l c' ∧ r' c' = r c') ∧
      IsMin (entriesFor ((Delivery.column c vals).cells 0 0) c true) (l' c).1 (l' c).2 ∧ (l' c) ∈ entriesFor ((Delivery.column c vals).cells 0 0) c true ∧
      (vals.length ≤ c + 1 → r' c = r c) ∧
      (c + 1 < vals.length → IsMin (entriesFor ((Delivery.column c vals).cells 0 0) c false) (r' c).1 (r' c).2) := by
  obtain ⟨hv1, hv2, hv3⟩ := hv
  change Fl.nan ∉ vals at hn
  have hpos : 0 < vals.length := List.length_pos_iff.mpr hv2
  have hget : pyGet [vals] 0 = .ok vals := rfl
  have hL : entriesFor ((Delivery.column c vals).cells 0 0) c true = (vals.take (c + 1)).zipIdx.map fun x : Fl K × Nat => (x.1, (x.2 : Int)) := by
    simpa using entriesFor_column_left c vals 0 0
  have hR : entriesFor ((Delivery.column c vals).cells 0 0) c false =
      (vals.drop (c + 1)).zipIdx.map fun x : Fl K × Nat => (x.1, ((x.2 + (c + 1) : Nat) : Int)) := by
    simpa using entriesFor_column_right c vals 0 0
  have hTo : pyTo vals ((c : Int) + 1) = vals.take (c + 1) := by exact_mod_cast pyTo_nat vals (c + 1)
  have hFrom : pyFrom vals ((c : Int) + 1) = vals.drop (c + 1) := by exact_mod_cast pyFrom_nat vals (c + 1)
  obtain ⟨m, j, hm, hj, hmj, hmn, hmle, -⟩ := foldPick_column (vals.take (c + 1)) (by simp [hv2]) (fun h => hn (List.mem_of_mem_take h)) 0 ((.pinf : Fl K), -1) (by simp)
  have hmem : (m, (j : Int)) ∈ entriesFor ((Delivery.column c vals).cells 0 0) c true := by
    rw [hL, List.mem_map]
    exact ⟨(m, j), by rw [List.mem_zipIdx_iff_getElem?]; exact hmj, rfl⟩
  have hmin : IsMin (entriesFor ((Delivery.column c vals).cells 0 0) c true) m (j : Int) := by
    refine ⟨hmn, fun x hx => ?_, Or.inr hmem⟩
    rw [hL] at hx
    obtain ⟨y, hy, rfl⟩ := List.mem_map.mp hx
    rw [List.mem_zipIdx_iff_getElem?] at hy
    exact hmle _ (List.mem_of_getElem? hy)
  set l' : Nat → Fl K × Int := fun c' => if c' = c then (m, (j : Int)) else l c' with hl'
  have hl'c : l' c = (m, (j : Int)) := by simp [hl']
  have hl'o : ∀ c' ≠ c, l' c' = l c' := fun c' h => by simp [hl', h]
  obtain ⟨mp', pi', h1, h2, h3⟩ := hp.left.set (f' := l') c hv1 (m, (j : Int)) hl'c fun c' _ h => hl'o c' h
  by_cases hc : c + 1 < vals.length
  · obtain ⟨m2, j2, hm2, hj2, hmj2, hmn2, hmle2, -⟩ := foldPick_column (vals.drop (c + 1)) (by simpa using hc) (fun h => hn (List.mem_of_mem_drop h)) 0
      ((.pinf : Fl K), -1) (by simp)
    have hmem2 : (m2, ((j2 + (c + 1) : Nat) : Int)) ∈ entriesFor ((Delivery.column c vals).cells 0 0) c false := by
      rw [hR, List.mem_map]
      exact ⟨(m2, j2), by rw [List.mem_zipIdx_iff_getElem?]; exact hmj2, rfl⟩
    set r' : Nat → Fl K × Int := fun c' => if c' = c then (m2, (j2 : Int) + c + 1) else r c' with hr'
    have hr'c : r' c = (m2, (j2 : Int) + c + 1) := by simp [hr']
    have hr'o : ∀ c' ≠ c, r' c' = r c' := fun c' h => by simp [hr', h]
    obtain ⟨mq, qi, h4, h5, h6⟩ := hp.right.set (f' := r') c hv1 (m2, (j2 : Int) + c + 1) hr'c fun c' _ h => hr'o c' h
    refine ⟨{ p with left := mp', leftIdx := pi', right := mq, rightIdx := qi }, l', r', ?_, ⟨hp.range, h3, h6⟩,
      fun c' h => ⟨hl'o c' h, hr'o c' h⟩, ?_, ?_, fun h => absurd h (by omega), fun _ => ?_⟩
    · have : (vals.length : Int) ≥ (c : Int) + 2 := by omega
      unfold processColumn
      simp only [hget, bind, Except.bind, hTo, hFrom, hm, hj, h1, h2, this, if_true, hm2, hj2, h4, h5, pure, Except.pure]
    · rw [hl'c]; exact hmin
    · rw [hl'c]; exact hmem
    · rw [hr'c]
      refine ⟨hmn2, fun x hx => ?_, Or.inr ?_⟩
      · rw [hR] at hx
        obtain ⟨y, hy, rfl⟩ := List.mem_map.mp hx
        rw [List.mem_zipIdx_iff_getElem?] at hy
        exact hmle2 _ (List.mem_of_getElem? hy)
      · have : ((j2 + (c + 1) : Nat) : Int) = (j2 : Int) + c + 1 := by push_cast; ring
        rw [← this]; exact hmem2
  · refine ⟨{ p with left := mp', leftIdx := pi' }, l', r, ?_, ⟨hp.range, h3, hp.right⟩,
      fun c' h => ⟨hl'o c' h, rfl⟩, ?_, ?_, fun _ => rfl, fun h => absurd h hc⟩
    · have : ¬ (vals.length : Int) ≥ (c : Int) + 2 := by omega
      unfold processColumn
      simp only [hget, bind, Except.bind, hTo, hm, hj, h1, h2, this, if_false, pure, Except.pure]
    · rw [hl'c]; exact hmin
    · rw [hl'c]; exact hmem

end MP

omit [LinearOrder K] in
theorem Spec.Seen.runWith_append (f : Nat → Nat → Delivery K → List (Cell K)) (t : Seen K) (a b : List (Delivery K)) :
    t.runWith f (a ++ b) = (t.runWith f a).runWith f b := by
  simp [Seen.runWith]

omit [LinearOrder K] in
/-- Without shifts the window stays where it is. -/
theorem Spec.Seen.run_noShift (ds : List (Delivery K)) (h : ∀ d ∈ ds, ∀ n, d ≠ .shiftSeries n ∧ d ≠ .shiftQuery n) (t : Seen K) :
    t.run ds = { t with cells := t.cells ++ (ds.map fun d => d.cells t.ss t.qs).flatten } := by
  induction ds generalizing t with
  | nil => simp [Seen.run, Seen.runWith]
  | cons d ds ih =>
    have h1 : t.run (d :: ds) = (t.stepWith Delivery.cells d).run ds := rfl
    have h2 : t.stepWith Delivery.cells d = { t with cells := t.cells ++ d.cells t.ss t.qs } := by
      have := h d (by simp)
      cases d with
      | shiftSeries n => exact absurd rfl (this n).1
      | shiftQuery n => exact absurd rfl (this n).2
      | _ => rfl
    rw [h1, h2, ih fun d hd => h d (by simp [hd])]
    simp

omit [LinearOrder K] in
theorem MP.run_append (p : MP K) [LinearOrder K] (a b : List (Delivery K)) : p.run (a ++ b) = (do let p ← p.run a; p.run b) := by
  simp [MP.run, List.foldlM_append]

theorem MP.run_diag {h w : Nat} (ds : List (Delivery K)) (hd : ∀ d ∈ ds, d.IsDiag) (hv : ∀ d ∈ ds, d.Valid h w) (cells : List (Cell K)) (p : MP K)
    (hp : p.Rep h w (fun c => best (entriesFor cells c true)) (fun c => best (entriesFor cells c false))) :
    ∃ p', p.run ds = .ok p' ∧ p'.Rep h w (fun c => best (entriesFor ((Seen.mk 0 0 cells).run ds).cells c true))
      (fun c => best (entriesFor ((Seen.mk 0 0 cells).run ds).cells c false)) := by
  induction ds generalizing cells p with
  | nil => exact ⟨p, rfl, hp⟩
  | cons d ds ih =>
    have hd' := hd d (by simp)
    cases d with
    | diag k vals =>
      obtain ⟨p1, h1, h2⟩ := processDiagonal_rep (l' := fun c => best (entriesFor (cells ++ (Delivery.diag k vals).cells 0 0) c true))
        (r' := fun c => best (entriesFor (cells ++ (Delivery.diag k vals).cells 0 0) c false)) hp k vals (hv _ (by simp))
        (fun c _ => by rw [entriesFor_append, best_append]) (fun c _ => by rw [entriesFor_append, best_append])
      obtain ⟨p2, h3, h4⟩ := ih (fun d hd0 => hd d (by simp [hd0])) (fun d hd0 => hv d (by simp [hd0])) _ p1 h2
      refine ⟨p2, ?_, h4⟩
      show (do let p ← p.deliver _; p.run ds) = _
      simp only [deliver, h1, bind, Except.bind, h3]
    | _ => exact hd'.elim

/-- **C38.** `MatrixProfileLR` of size `h` × `w` after any sequence of (parts of) diagonals, repetitions and NaN values allowed: at every column
the left (right) profile is the smallest non-NaN value delivered on or above (below) the main diagonal and the index is the row of the first
delivery of it; +inf and -1 if nothing below +inf was delivered. -/
theorem C38_diagonals (h w : Nat) (ds : List (Delivery K)) (hd : ∀ d ∈ ds, d.IsDiag) (hv : ∀ d ∈ ds, d.Valid h w) :
    ∃ p p' : MP K, MP.initialise h w = .ok p ∧ p.run ds = .ok p' ∧
      p'.left.length = w ∧ p'.leftIdx.length = w ∧ p'.right.length = w ∧ p'.rightIdx.length = w ∧
      ∀ c < w, (∃ v i, p'.left[c]? = some v ∧ p'.leftIdx[c]? = some i ∧ IsBest (entriesFor (Seen.init.run ds).cells c true) v i) ∧
        (∃ v i, p'.right[c]? = some v ∧ p'.rightIdx[c]? = some i ∧ IsBest (entriesFor (Seen.init.run ds).cells c false) v i) := by
  obtain ⟨p, h1, h2⟩ := MP.initialise_rep (K := K) h w
  obtain ⟨p', h3, h4⟩ := MP.run_diag ds hd hv [] p h2
  refine ⟨p, p', h1, h3, h4.left.len.1, h4.left.len.2, h4.right.len.1, h4.right.len.2, fun c hc => ⟨?_, ?_⟩⟩
  · exact ⟨_, _, (h4.left.get hc).1, (h4.left.get hc).2, best_isBest _⟩
  · exact ⟨_, _, (h4.right.get hc).1, (h4.right.get hc).2, best_isBest _⟩

example := C38_diagonals 3 4 ([.diag 1 [.fin 5, .nan, .fin 2], .diag (-1) [.fin 3, .fin 4], .diag 0 [.fin 9, .fin 5, .pinf]] : List (Delivery ℚ))
  (by simp [Delivery.IsDiag]) (by simp [Delivery.Valid])

/-- The profile values of C38 do not depend on the order of the diagonals. -/
theorem C38_order_independent (h w : Nat) (ds ds' : List (Delivery K)) (hd : ∀ d ∈ ds, d.IsDiag) (hv : ∀ d ∈ ds, d.Valid h w)
    (hp : ds.Perm ds') (p q q' : MP K) (h0 : MP.initialise h w = .ok p) (h1 : p.run ds = .ok q) (h2 : p.run ds' = .ok q') :
    q.left = q'.left ∧ q.right = q'.right := by
  have hd' : ∀ d ∈ ds', d.IsDiag := fun d hm => hd d (hp.mem_iff.mpr hm)
  have hv' : ∀ d ∈ ds', d.Valid h w := fun d hm => hv d (hp.mem_iff.mpr hm)
  have hns : ∀ ds : List (Delivery K), (∀ d ∈ ds, d.IsDiag) → ∀ d ∈ ds, ∀ n, d ≠ .shiftSeries n ∧ d ≠ .shiftQuery n := by
    intro ds hd d hm n
    have := hd d hm
    constructor <;> (rintro rfl; exact this)
  obtain ⟨p1, q1, a1, a2, al, -, ar, -, a3⟩ := C38_diagonals h w ds hd hv
  obtain ⟨p2, q2, b1, b2, bl, -, br, -, b3⟩ := C38_diagonals h w ds' hd' hv'
  rw [h0] at a1 b1
  cases a1; cases b1
  rw [h1] at a2; rw [h2] at b2
  cases a2; cases b2
  have hmem : ∀ (c : Int) (left : Bool) (x : Fl K × Int), x ∈ entriesFor (Seen.init.run ds).cells c left ↔ x ∈ entriesFor (Seen.init.run ds').cells c left := by
    intro c left x
    rw [Seen.run_noShift ds (hns ds hd), Seen.run_noShift ds' (hns ds' hd')]
    have : ((ds.map fun d => d.cells (Seen.init (K := K)).ss (Seen.init (K := K)).qs).flatten).Perm
        ((ds'.map fun d => d.cells (Seen.init (K := K)).ss (Seen.init (K := K)).qs).flatten) := (hp.map _).flatten
    have := ((this.append_left (Seen.init (K := K)).cells).filter fun x => decide (x.col = c) && (decide (x.row ≤ x.col) == left)).map
      fun x => (x.val, x.row)
    exact this.mem_iff
  have key : ∀ (s s' : List (Fl K × Int)) (v v' : Fl K) (i i' : Int), (∀ x, x ∈ s ↔ x ∈ s') → IsBest s v i → IsBest s' v' i' → v ≤ v' := by
    intro s s' v v' i i' hs hb hb'
    rcases hb'.attained with ⟨rfl, -⟩ | ⟨-, pre, post, e, -⟩
    · exact (Fl.le_pinf_iff _).mpr hb.number
    · rcases hb.lower (v', i') ((hs _).mpr (by rw [e]; simp)) with h | h
      · exact absurd h hb'.number
      · exact h
  constructor
  · apply List.ext_getElem?
    intro c
    rcases Nat.lt_or_ge c w with hc | hc
    · obtain ⟨v, i, e1, -, e2⟩ := (a3 c hc).1
      obtain ⟨v', i', e3, -, e4⟩ := (b3 c hc).1
      rw [e1, e3]
      exact congrArg some (le_antisymm (key _ _ _ _ _ _ (hmem _ _) e2 e4) (key _ _ _ _ _ _ (fun x => (hmem _ _ x).symm) e4 e2))
    · simp [al, bl, hc]
  · apply List.ext_getElem?
    intro c
    rcases Nat.lt_or_ge c w with hc | hc
    · obtain ⟨v, i, e1, -, e2⟩ := (a3 c hc).2
      obtain ⟨v', i', e3, -, e4⟩ := (b3 c hc).2
      rw [e1, e3]
      exact congrArg some (le_antisymm (key _ _ _ _ _ _ (hmem _ _) e2 e4) (key _ _ _ _ _ _ (fun x => (hmem _ _ x).symm) e4 e2))
    · simp [ar, br, hc]

example := C38_order_independent 3 4 ([.diag 1 [.fin 5, .nan, .fin 2], .diag (-1) [.fin 3, .fin 4]] : List (Delivery ℚ))
  [.diag (-1) [.fin 3, .fin 4], .diag 1 [.fin 5, .nan, .fin 2]] (by simp [Delivery.IsDiag]) (by simp [Delivery.Valid]) (List.Perm.swap _ _ _) _ _ _ rfl rfl rfl

omit [LinearOrder K] in
theorem mem_entriesFor (cells : List (Cell K)) (c : Int) (left : Bool) (v : Fl K) (i : Int) :
    (v, i) ∈ entriesFor cells c left ↔ (⟨i, c, v⟩ : Cell K) ∈ cells ∧ decide (i ≤ c) = left := by
  simp only [entriesFor, List.mem_map, List.mem_filter, Bool.and_eq_true, decide_eq_true_eq, beq_iff_eq, Prod.mk.injEq]
  constructor
  · rintro ⟨⟨r, c', v'⟩, ⟨h1, rfl, h2⟩, rfl, rfl⟩
    exact ⟨h1, h2⟩
  · rintro ⟨h1, h2⟩
    exact ⟨_, ⟨h1, rfl, h2⟩, rfl, rfl⟩

/-- Cells of a matrix. -/
def CellsOf (A : Nat → Nat → Fl K) (h w : Nat) (cells : List (Cell K)) : Prop :=
  ∀ x ∈ cells, ∃ r c : Nat, r < h ∧ c < w ∧ x = ⟨(r : Int), (c : Int), A r c⟩

omit [LinearOrder K] in
theorem CellsOf.of_delivery {A : Nat → Nat → Fl K} {h w : Nat} {d : Delivery K} (hv : d.Valid h w) (ho : d.Of A h) : CellsOf A h w (d.cells 0 0) := by
  intro x hx
  cases d with
  | diag k vals =>
    obtain ⟨⟨v, j⟩, hy, rfl⟩ := List.mem_map.mp hx
    rw [List.mem_zipIdx_iff_getElem?] at hy
    have hj : j < vals.length := (List.getElem?_eq_some_iff.mp hy).1
    have := hv.1; have := hv.2
    refine ⟨(-k).toNat + j, k.toNat + j, by omega, by omega, ?_⟩
    simp [← ho j v hy]
  | column c vals =>
    obtain ⟨⟨v, j⟩, hy, rfl⟩ := List.mem_map.mp hx
    rw [List.mem_zipIdx_iff_getElem?] at hy
    simp only at hy
    have hj : j < vals.length := (List.getElem?_eq_some_iff.mp hy).1
    have h1 := hv.1; have h2 := hv.2.2
    have ho' : vals = (List.range h).map fun r => A r c := ho
    refine ⟨j, c, by omega, h1, ?_⟩
    rw [ho', List.getElem?_map, List.getElem?_range (by omega)] at hy
    simp at hy
    simp [hy]
  | _ => exact ho.elim

theorem Spec.IsMin.fold {s t : List (Fl K × Int)} {b : Fl K × Int} (h : IsMin s b.1 b.2) (hn : ∀ x ∈ t, x.1 ≠ .nan) :
    IsMin (s ++ t) (t.foldl pick b).1 (t.foldl pick b).2 := by
  induction t generalizing s b with
  | nil => simpa using h
  | cons x xs ih =>
    have : s ++ x :: xs = (s ++ [x]) ++ xs := by simp
    rw [this, List.foldl_cons]
    refine ih ?_ fun y hy => hn y (by simp [hy])
    have hx := hn x (by simp)
    unfold pick
    split
    · rename_i hlt
      rw [Fl.ltF_iff] at hlt
      refine ⟨hx, fun y hy => ?_, Or.inr (by simp)⟩
      rcases List.mem_append.mp hy with hy | hy
      · exact hlt.1.le.trans (h.lower y hy)
      · simp at hy; subst hy; exact le_rfl
    · rename_i hlt
      rw [Bool.not_eq_true, Fl.ltF_false_iff _ _ h.number] at hlt
      refine ⟨h.number, fun y hy => ?_, h.attained.imp_right fun hm => by simp [hm]⟩
      rcases List.mem_append.mp hy with hy | hy
      · exact h.lower y hy
      · simp at hy; subst hy; exact hlt

/-- Invariant for histories of diagonals and whole columns of one matrix. -/
structure MP.MixRep (p : MP K) (A : Nat → Nat → Fl K) (h w : Nat) (cells : List (Cell K)) (l r : Nat → Fl K × Int) : Prop where
  rep : p.Rep h w l r
  left : ∀ c < w, IsMin (entriesFor cells c true) (l c).1 (l c).2
  right : ∀ c < w, IsMin (entriesFor cells c false) (r c).1 (r c).2
  cells : CellsOf A h w cells

theorem MP.deliver_mix {p : MP K} {A : Nat → Nat → Fl K} {h w : Nat} {cells : List (Cell K)} {l r : Nat → Fl K × Int}
    (hp : p.MixRep A h w cells l r) (hA : ∀ i < h, ∀ j < w, A i j ≠ .nan) (d : Delivery K) (hv : d.Valid h w) (ho : d.Of A h) :
    ∃ p' l' r', p.deliver d = .ok p' ∧ p'.MixRep A h w (cells ++ d.cells 0 0) l' r' := by
  have hcells := CellsOf.of_delivery hv ho
  have hall : CellsOf A h w (cells ++ d.cells 0 0) := fun x hx => (List.mem_append.mp hx).elim (hp.cells x) (hcells x)
  have hnan : ∀ (c : Int) (left : Bool), ∀ x ∈ entriesFor (d.cells 0 0) c left, x.1 ≠ .nan := by
    rintro c left ⟨v, i⟩ hx
    obtain ⟨h1, -⟩ := (mem_entriesFor _ _ _ _ _).mp hx
    obtain ⟨r, c', hr, hc', e⟩ := hcells _ h1
    simp only [Cell.mk.injEq] at e
    rw [e.2.2]; exact hA r hr c' hc'
  cases d with
  | diag k vals =>
    obtain ⟨p1, h1, h2⟩ := processDiagonal_rep (l' := fun c => (entriesFor ((Delivery.diag k vals).cells 0 0) c true).foldl pick (l c))
      (r' := fun c => (entriesFor ((Delivery.diag k vals).cells 0 0) c false).foldl pick (r c)) hp.rep k vals hv
      (fun c _ => rfl) (fun c _ => rfl)
    refine ⟨p1, _, _, h1, h2, fun c hc => ?_, fun c hc => ?_, hall⟩
    · rw [entriesFor_append]; exact (hp.left c hc).fold (hnan _ _)
    · rw [entriesFor_append]; exact (hp.right c hc).fold (hnan _ _)
  | column c vals =>
    have ho' : vals = (List.range h).map fun r => A r c := ho
    have hlen : vals.length = h := by rw [ho']; simp
    have hc := hv.1
    have hclean : Fl.nan ∉ vals := by
      rw [ho', List.mem_map]
      rintro ⟨i, hi, e⟩
      exact hA i (by simpa using hi) c hc e
    obtain ⟨p1, l', r', h1, h2, h3, h4, h5, h6, h7⟩ := processColumn_rep hp.rep c vals hv hclean
    -- cells seen before in this column are among those of the column
    have hsub : ∀ left, ∀ x ∈ entriesFor cells c left, x ∈ entriesFor ((Delivery.column c vals).cells 0 0) c left := by
      rintro left ⟨v, i⟩ hx
      obtain ⟨m1, m2⟩ := (mem_entriesFor _ _ _ _ _).mp hx
      obtain ⟨r, c', hr, hc', e⟩ := hp.cells _ m1
      simp only [Cell.mk.injEq] at e
      obtain ⟨rfl, e2, rfl⟩ := e
      have : c = c' := by omega
      subst this
      refine (mem_entriesFor _ _ _ _ _).mpr ⟨?_, m2⟩
      refine List.mem_map.mpr ⟨(A r c, r), ?_, by simp⟩
      rw [List.mem_zipIdx_iff_getElem?, ho', List.getElem?_map, List.getElem?_range hr]
      rfl
    refine ⟨p1, l', r', h1, h2, fun c' hc' => ?_, fun c' hc' => ?_, hall⟩
    · rw [entriesFor_append]
      by_cases he : c' = c
      · subst he
        refine ⟨h4.number, fun x hx => ?_, Or.inr (List.mem_append_right _ h5)⟩
        exact h4.lower x ((List.mem_append.mp hx).elim (hsub _ x) id)
      · have := entriesFor_column_ne c c' vals 0 0 true he
        simp only [Nat.add_zero] at this
        rw [(h3 c' he).1, this, List.append_nil]
        exact hp.left c' hc'
    · rw [entriesFor_append]
      by_cases he : c' = c
      · subst he
        by_cases hlt : c' + 1 < vals.length
        · have h8 := h7 hlt
          refine ⟨h8.number, fun x hx => ?_, h8.attained.imp_right fun hm => List.mem_append_right _ hm⟩
          exact h8.lower x ((List.mem_append.mp hx).elim (hsub _ x) id)
        · have := entriesFor_column_right c' vals 0 0
          simp only [Nat.add_zero, Nat.sub_zero] at this
          rw [this, List.drop_eq_nil_of_le (by omega), h6 (by omega)]
          simpa using hp.right c' hc'
      · have := entriesFor_column_ne c c' vals 0 0 false he
        simp only [Nat.add_zero] at this
        rw [(h3 c' he).2, this, List.append_nil]
        exact hp.right c' hc'
  | _ => exact ho.elim

theorem MP.run_mix {A : Nat → Nat → Fl K} {h w : Nat} (hA : ∀ i < h, ∀ j < w, A i j ≠ .nan) (ds : List (Delivery K)) (hv : ∀ d ∈ ds, d.Valid h w)
    (ho : ∀ d ∈ ds, d.Of A h) (cells : List (Cell K)) (p : MP K) (l r : Nat → Fl K × Int) (hp : p.MixRep A h w cells l r) :
    ∃ p' l' r', p.run ds = .ok p' ∧ p'.MixRep A h w ((Seen.mk 0 0 cells).run ds).cells l' r' := by
  induction ds generalizing cells p l r with
  | nil => exact ⟨p, l, r, rfl, hp⟩
  | cons d ds ih =>
    obtain ⟨p1, l1, r1, h1, h2⟩ := deliver_mix hp hA d (hv d (by simp)) (ho d (by simp))
    obtain ⟨p2, l2, r2, h3, h4⟩ := ih (fun d hd => hv d (by simp [hd])) (fun d hd => ho d (by simp [hd])) _ p1 l1 r1 h2
    refine ⟨p2, l2, r2, ?_, ?_⟩
    · show (do let p ← p.deliver d; p.run ds) = _
      simp only [h1, bind, Except.bind, h3]
    · have : ((Seen.mk 0 0 cells).run (d :: ds)) = (Seen.mk 0 0 (cells ++ d.cells 0 0)).run ds := by
        show ((Seen.mk 0 0 cells).stepWith Delivery.cells d).run ds = _
        have := ho d (by simp)
        cases d <;> first | rfl | exact this.elim
      rw [this]; exact h4

/-- **C39, any mix.** After delivering any mix of (parts of) diagonals and whole columns of a NaN-free `h` × `w` matrix, in any order, the left
(right) profile at a column is the minimum of the delivered cells on or above (below) the main diagonal and the index the row of one of them
(+inf and -1 if there are none). -/
theorem C39_any_mix (A : Nat → Nat → Fl K) (h w : Nat) (hA : ∀ i < h, ∀ j < w, A i j ≠ .nan) (ds : List (Delivery K)) (hv : ∀ d ∈ ds, d.Valid h w)
    (ho : ∀ d ∈ ds, d.Of A h) :
    ∃ p p' : MP K, MP.initialise h w = .ok p ∧ p.run ds = .ok p' ∧ p'.left.length = w ∧ p'.right.length = w ∧
      ∀ c < w, (∃ v i, p'.left[c]? = some v ∧ p'.leftIdx[c]? = some i ∧ IsMin (entriesFor (Seen.init.run ds).cells c true) v i) ∧
        (∃ v i, p'.right[c]? = some v ∧ p'.rightIdx[c]? = some i ∧ IsMin (entriesFor (Seen.init.run ds).cells c false) v i) := by
  obtain ⟨p, h1, h2⟩ := MP.initialise_rep (K := K) h w
  obtain ⟨p', l, r, h3, h4⟩ := MP.run_mix hA ds hv ho [] p _ _
    ⟨h2, fun c _ => ⟨by simp, by simp [entriesFor], Or.inl ⟨rfl, rfl⟩⟩, fun c _ => ⟨by simp, by simp [entriesFor], Or.inl ⟨rfl, rfl⟩⟩, by simp [CellsOf]⟩
  refine ⟨p, p', h1, h3, h4.rep.left.len.1, h4.rep.right.len.1, fun c hc => ⟨?_, ?_⟩⟩
  · exact ⟨_, _, (h4.rep.left.get hc).1, (h4.rep.left.get hc).2, h4.left c hc⟩
  · exact ⟨_, _, (h4.rep.right.get hc).1, (h4.rep.right.get hc).2, h4.right c hc⟩

example := C39_any_mix (K := ℚ) (fun r c => .fin ((r * 5 + c * 3) % 7 : ℕ)) 3 2 (by simp)
  ([.column 1 [.fin 3, .fin 1, .fin 6], .diag (-1) [.fin 5, .fin 6]] : List (Delivery ℚ)) (by simp [Delivery.Valid])
  (by
    intro d hd
    simp only [List.mem_cons, List.not_mem_nil, or_false] at hd
    rcases hd with rfl | rfl
    · show _ = _
      decide +kernel
    · rintro (_ | _ | k) x hx <;> simp at hx <;> subst hx <;> decide +kernel)

/-- `v` is the minimum of column `c` of the matrix over the rows `r` with `side r` (+inf if there are none). -/
def Spec.IsColMin (A : Nat → Nat → Fl K) (h : Nat) (side : Nat → Prop) (c : Nat) (v : Fl K) : Prop :=
  v ≠ .nan ∧ (∀ r < h, side r → v ≤ A r c) ∧ (v = .pinf ∨ ∃ r < h, side r ∧ v = A r c)

/-- Every cell of the matrix has been delivered. -/
def Spec.Complete (h w : Nat) (ds : List (Delivery K)) : Prop :=
  ∀ r < h, ∀ c < w, ∃ x ∈ ((Seen.init (K := K)).run ds).cells, x.row = (r : Int) ∧ x.col = (c : Int)

omit [LinearOrder K] in
theorem Spec.mem_run_cells {A : Nat → Nat → Fl K} {h w : Nat} (ds : List (Delivery K)) (hv : ∀ d ∈ ds, d.Valid h w) (ho : ∀ d ∈ ds, d.Of A h) :
    CellsOf A h w (Seen.init.run ds).cells ∧ ∀ x : Cell K, x ∈ (Seen.init.run ds).cells ↔ ∃ d ∈ ds, x ∈ d.cells 0 0 := by
  have hns : ∀ d ∈ ds, ∀ n, d ≠ .shiftSeries n ∧ d ≠ .shiftQuery n := by
    intro d hm n
    have := ho d hm
    constructor <;> (rintro rfl; exact this)
  have hiff : ∀ x : Cell K, x ∈ (Seen.init.run ds).cells ↔ ∃ d ∈ ds, x ∈ d.cells 0 0 := by
    intro x
    rw [Seen.run_noShift ds hns]
    simp [Seen.init]
  refine ⟨fun x hx => ?_, hiff⟩
  obtain ⟨d, hd, hx⟩ := (hiff x).mp hx
  exact CellsOf.of_delivery (hv d hd) (ho d hd) x hx

/-- **C39.** After any history that delivered every cell of a NaN-free matrix (through columns, diagonals or both, in any order), the left and
right profiles are the column minima on or above and below the main diagonal. -/
theorem C39_complete (A : Nat → Nat → Fl K) (h w : Nat) (hA : ∀ i < h, ∀ j < w, A i j ≠ .nan) (ds : List (Delivery K)) (hv : ∀ d ∈ ds, d.Valid h w)
    (ho : ∀ d ∈ ds, d.Of A h) (hc : Complete h w ds) :
    ∃ p p' : MP K, MP.initialise h w = .ok p ∧ p.run ds = .ok p' ∧ p'.left.length = w ∧ p'.right.length = w ∧
      ∀ c < w, (∃ v, p'.left[c]? = some v ∧ IsColMin A h (· ≤ c) c v) ∧ (∃ v, p'.right[c]? = some v ∧ IsColMin A h (c < ·) c v) := by
  obtain ⟨p, p', h1, h2, h3, h4, h5⟩ := C39_any_mix A h w hA ds hv ho
  obtain ⟨hcells, -⟩ := mem_run_cells ds hv ho
  refine ⟨p, p', h1, h2, h3, h4, fun c hcw => ?_⟩
  have key : ∀ (left : Bool) (side : Nat → Prop), (∀ r : Nat, side r ↔ decide ((r : Int) ≤ (c : Int)) = left) → ∀ v i,
      IsMin (entriesFor (Seen.init.run ds).cells c left) v i → IsColMin A h side c v := by
    intro left side hs v i hm
    refine ⟨hm.number, fun r hr hsr => ?_, ?_⟩
    · obtain ⟨⟨xr, xc, xv⟩, hx, rfl, rfl⟩ := hc r hr c hcw
      have hx' := hx
      obtain ⟨r', c', -, -, e⟩ := hcells _ hx
      simp only [Cell.mk.injEq] at e
      obtain ⟨e1, e2, rfl⟩ := e
      have e1 : r = r' := by omega
      have e2 : c = c' := by omega
      subst e1 e2
      exact hm.lower (A r c, (r : Int)) ((mem_entriesFor _ _ _ _ _).mpr ⟨hx', (hs r).mp hsr⟩)
    · refine hm.attained.imp And.left fun hmem => ?_
      obtain ⟨m1, m2⟩ := (mem_entriesFor _ _ _ _ _).mp hmem
      obtain ⟨r, c', hr, hc', e⟩ := hcells _ m1
      simp only [Cell.mk.injEq] at e
      obtain ⟨rfl, e2, rfl⟩ := e
      have e2 : c = c' := by omega
      subst e2
      exact ⟨r, hr, (hs r).mpr m2, rfl⟩
  obtain ⟨⟨v, i, a1, a2, a3⟩, ⟨v', i', b1, b2, b3⟩⟩ := h5 c hcw
  exact ⟨⟨v, a1, key true _ (fun r => by simp) v i a3⟩, ⟨v', b1, key false _ (fun r => by simp) v' i' b3⟩⟩

theorem Spec.IsColMin.unique {A : Nat → Nat → Fl K} {h c : Nat} {side : Nat → Prop} {v v' : Fl K} (a : IsColMin A h side c v)
    (b : IsColMin A h side c v') : v = v' := by
  have key : ∀ {v v' : Fl K}, IsColMin A h side c v → IsColMin A h side c v' → v ≤ v' := by
    intro v v' a b
    rcases b.2.2 with rfl | ⟨r, hr, hs, rfl⟩
    · exact (Fl.le_pinf_iff _).mpr a.1
    · exact a.2.1 r hr hs
  exact le_antisymm (key a b) (key b a)

/-- **C39, columns = diagonals.** Any two complete histories of the same NaN-free matrix end in the same left, right and merged profile. -/
theorem C39_columns_eq_diagonals (A : Nat → Nat → Fl K) (h w : Nat) (hA : ∀ i < h, ∀ j < w, A i j ≠ .nan) (ds ds' : List (Delivery K))
    (hv : ∀ d ∈ ds, d.Valid h w) (ho : ∀ d ∈ ds, d.Of A h) (hc : Complete h w ds)
    (hv' : ∀ d ∈ ds', d.Valid h w) (ho' : ∀ d ∈ ds', d.Of A h) (hc' : Complete h w ds') :
    ∃ p q q' : MP K, MP.initialise h w = .ok p ∧ p.run ds = .ok q ∧ p.run ds' = .ok q' ∧ q.left = q'.left ∧ q.right = q'.right ∧
      MP.merged q.left q.right = MP.merged q'.left q'.right := by
  obtain ⟨p, q, a1, a2, a3, a4, a5⟩ := C39_complete A h w hA ds hv ho hc
  obtain ⟨p', q', b1, b2, b3, b4, b5⟩ := C39_complete A h w hA ds' hv' ho' hc'
  rw [a1] at b1; cases b1
  have e1 : q.left = q'.left := by
    apply List.ext_getElem?
    intro c
    rcases Nat.lt_or_ge c w with hcw | hcw
    · obtain ⟨v, e1, e2⟩ := (a5 c hcw).1
      obtain ⟨v', e3, e4⟩ := (b5 c hcw).1
      rw [e1, e3, e2.unique e4]
    · simp [a3, b3, hcw]
  have e2 : q.right = q'.right := by
    apply List.ext_getElem?
    intro c
    rcases Nat.lt_or_ge c w with hcw | hcw
    · obtain ⟨v, e1, e2⟩ := (a5 c hcw).2
      obtain ⟨v', e3, e4⟩ := (b5 c hcw).2
      rw [e1, e3, e2.unique e4]
    · simp [a4, b4, hcw]
  exact ⟨p, q, q', a1, a2, b2, e1, e2, by rw [e1, e2]⟩

/-- All columns of a matrix, in the order `cs`. -/
def Spec.columnsOf (A : Nat → Nat → Fl K) (h : Nat) (cs : List Nat) : List (Delivery K) := cs.map fun c => .column c ((List.range h).map fun r => A r c)

/-- The diagonals `dl` of a matrix. -/
def Spec.diagsOf (A : Nat → Nat → Fl K) (h w : Nat) (dl : List Int) : List (Delivery K) :=
  dl.map fun d => .diag d ((List.range (min (h - (-d).toNat) (w - d.toNat))).map fun k => A ((-d).toNat + k) (d.toNat + k))

omit [LinearOrder K] in
/-- All columns, in any order, are a complete history. -/
theorem Spec.columnsOf_ok (A : Nat → Nat → Fl K) (h w : Nat) (hh : 0 < h) (cs : List Nat) (hcs : cs.Perm (List.range w)) :
    (∀ d ∈ columnsOf A h cs, d.Valid h w) ∧ (∀ d ∈ columnsOf A h cs, d.Of A h) ∧ Complete h w (columnsOf A h cs) := by
  have hv : ∀ d ∈ columnsOf A h cs, d.Valid h w := by
    intro d hd
    obtain ⟨c, hc, rfl⟩ := List.mem_map.mp hd
    have : c < w := by simpa using hcs.mem_iff.mp hc
    exact ⟨this, by simp; omega, by simp⟩
  have ho : ∀ d ∈ columnsOf A h cs, d.Of A h := by
    intro d hd
    obtain ⟨c, hc, rfl⟩ := List.mem_map.mp hd
    rfl
  refine ⟨hv, ho, fun r hr c hc => ?_⟩
  obtain ⟨-, hiff⟩ := mem_run_cells _ hv ho
  refine ⟨⟨r, c, A r c⟩, (hiff _).mpr ⟨_, List.mem_map.mpr ⟨c, hcs.mem_iff.mpr (by simpa using hc), rfl⟩, ?_⟩, rfl, rfl⟩
  refine List.mem_map.mpr ⟨(A r c, r), ?_, by simp⟩
  rw [List.mem_zipIdx_iff_getElem?, List.getElem?_map, List.getElem?_range hr]
  rfl

omit [LinearOrder K] in
/-- All diagonals, in any order, are a complete history. -/
theorem Spec.diagsOf_ok (A : Nat → Nat → Fl K) (h w : Nat) (dl : List Int) (hdl : ∀ d : Int, d ∈ dl ↔ -(h : Int) < d ∧ d < w) :
    (∀ d ∈ diagsOf A h w dl, d.Valid h w) ∧ (∀ d ∈ diagsOf A h w dl, d.Of A h) ∧ Complete h w (diagsOf A h w dl) := by
  have hv : ∀ d ∈ diagsOf A h w dl, d.Valid h w := by
    intro d hd
    obtain ⟨k, hk, rfl⟩ := List.mem_map.mp hd
    have := (hdl k).mp hk
    constructor <;> (simp; omega)
  have ho : ∀ d ∈ diagsOf A h w dl, d.Of A h := by
    intro d hd
    obtain ⟨k, hk, rfl⟩ := List.mem_map.mp hd
    intro j x hx
    have hj := (List.getElem?_eq_some_iff.mp hx).1
    simp only [List.length_map, List.length_range] at hj
    rw [List.getElem?_map, List.getElem?_range hj] at hx
    simpa using hx.symm
  refine ⟨hv, ho, fun r hr c hc => ?_⟩
  obtain ⟨-, hiff⟩ := mem_run_cells _ hv ho
  refine ⟨⟨r, c, A r c⟩, (hiff _).mpr ⟨_, List.mem_map.mpr ⟨(c : Int) - r, (hdl _).mpr (by omega), rfl⟩, ?_⟩, rfl, rfl⟩
  set d : Int := (c : Int) - r
  refine List.mem_map.mpr ⟨(A r c, min r c), ?_, ?_⟩
  · rw [List.mem_zipIdx_iff_getElem?]
    have h1 : (-d).toNat + min r c = r := by omega
    have h2 : d.toNat + min r c = c := by omega
    show (List.map _ (List.range _))[min r c]? = some (A r c)
    rw [List.getElem?_map, List.getElem?_range (by omega)]
    simp [h1, h2]
  · have h1 : (-d).toNat + min r c + 0 = r := by omega
    have h2 : d.toNat + min r c + 0 = c := by omega
    simp only [h1, h2]

example := C39_complete (K := ℚ) (fun r c => .fin ((r * 5 + c * 3) % 7 : ℕ)) 3 2 (by simp) _ (diagsOf_ok _ 3 2 [0, -2, 1, -1] (by intro d; simp; omega)).1
  (diagsOf_ok _ 3 2 [0, -2, 1, -1] (by intro d; simp; omega)).2.1 (diagsOf_ok _ 3 2 [0, -2, 1, -1] (by intro d; simp; omega)).2.2

/-- C39 is not vacuous: for a concrete 3 × 2 matrix all columns (backwards) and all diagonals (some order) are complete histories. -/
example : let A : Nat → Nat → Fl ℚ := fun r c => .fin ((r * 5 + c * 3) % 7 : Nat)
    ∃ p q q' : MP ℚ, MP.initialise 3 2 = .ok p ∧ p.run (columnsOf A 3 [1, 0]) = .ok q ∧ p.run (diagsOf A 3 2 [0, -2, 1, -1]) = .ok q' ∧
      q.left = q'.left ∧ q.right = q'.right ∧ MP.merged q.left q.right = MP.merged q'.left q'.right := by
  intro A
  obtain ⟨a1, a2, a3⟩ := columnsOf_ok A 3 2 (by omega) [1, 0] (by decide)
  obtain ⟨b1, b2, b3⟩ := diagsOf_ok A 3 2 [0, -2, 1, -1] (by intro d; simp; omega)
  exact C39_columns_eq_diagonals A 3 2 (by intro i _ j _; simp [A]) _ _ a1 a2 a3 b1 b2 b3

/-! ### C40 -/

theorem MP.merged_get (l r : List (Fl K)) (li ri : List Int) (c : Nat) (a b : Fl K) (i j : Int) (h1 : l[c]? = some a) (h2 : r[c]? = some b)
    (h3 : li[c]? = some i) (h4 : ri[c]? = some j) :
    (MP.merged l r)[c]? = some (if Fl.ltF a b then a else b) ∧ (MP.mergedIdx l r li ri)[c]? = some (if Fl.ltF a b then i else j) := by
  simp [MP.merged, MP.mergedIdx, List.getElem?_zipWith, List.zip, h1, h2, h3, h4]

/-- `v` is the smallest delivered non-NaN value of column `c`, on either side of the diagonal, and `i` the row of a delivery of it; +inf and -1
if nothing below +inf was delivered. -/
structure Spec.IsOverall (cells : List (Cell K)) (c : Int) (v : Fl K) (i : Int) : Prop where
  number : v ≠ .nan
  lower : ∀ x ∈ cells, x.col = c → x.val = .nan ∨ v ≤ x.val
  attained : (v = .pinf ∧ i = -1) ∨ (v < .pinf ∧ (⟨i, c, v⟩ : Cell K) ∈ cells)

/-- **C40.** After any sequence of diagonals the merged profile is the smaller of the left and right one; together with the merged index it
names the smallest value delivered for the column and a row where that value was delivered. -/
theorem C40_merged (h w : Nat) (ds : List (Delivery K)) (hd : ∀ d ∈ ds, d.IsDiag) (hv : ∀ d ∈ ds, d.Valid h w) :
    ∃ p p' : MP K, MP.initialise h w = .ok p ∧ p.run ds = .ok p' ∧
      (MP.merged p'.left p'.right).length = w ∧ (MP.mergedIdx p'.left p'.right p'.leftIdx p'.rightIdx).length = w ∧
      ∀ c < w, ∃ a b v i, p'.left[c]? = some a ∧ p'.right[c]? = some b ∧ (MP.merged p'.left p'.right)[c]? = some v ∧
        (MP.mergedIdx p'.left p'.right p'.leftIdx p'.rightIdx)[c]? = some i ∧ v = min a b ∧ IsOverall (Seen.init.run ds).cells c v i := by
  obtain ⟨p, p', h1, h2, l1, l2, l3, l4, h3⟩ := C38_diagonals h w ds hd hv
  refine ⟨p, p', h1, h2, by simp [MP.merged, l1, l3], by simp [MP.mergedIdx, l1, l2, l3, l4], fun c hc => ?_⟩
  obtain ⟨⟨a, i, a1, a2, a3⟩, ⟨b, j, b1, b2, b3⟩⟩ := h3 c hc
  obtain ⟨m1, m2⟩ := MP.merged_get _ _ _ _ c a b i j a1 b1 a2 b2
  have hmin : (if Fl.ltF a b then a else b) = min a b := by
    split
    · rename_i hlt; rw [Fl.ltF_iff] at hlt; exact (min_eq_left hlt.1.le).symm
    · rename_i hlt; rw [Bool.not_eq_true, Fl.ltF_false_iff _ _ b3.number] at hlt; exact (min_eq_right hlt).symm
  refine ⟨a, b, _, _, a1, b1, m1, m2, hmin, ?_, ?_, ?_⟩
  · split
    · exact a3.number
    · exact b3.number
  · rintro ⟨xr, xc, xv⟩ hx rfl
    rw [hmin]
    by_cases hs : xr ≤ (c : Int)
    · exact (a3.lower (xv, xr) ((mem_entriesFor _ _ _ _ _).mpr ⟨hx, by simpa using hs⟩)).imp_right fun h => (min_le_left _ _).trans h
    · exact (b3.lower (xv, xr) ((mem_entriesFor _ _ _ _ _).mpr ⟨hx, by simpa using hs⟩)).imp_right fun h => (min_le_right _ _).trans h
  · have hatt : ∀ (left : Bool) v i, IsBest (entriesFor (Seen.init.run ds).cells c left) v i →
        (v = .pinf ∧ i = -1) ∨ (v < .pinf ∧ (⟨i, c, v⟩ : Cell K) ∈ (Seen.init.run ds).cells) := by
      intro left v i hb
      refine hb.attained.imp_right ?_
      rintro ⟨e1, pre, post, e2, -⟩
      exact ⟨e1, ((mem_entriesFor _ _ _ _ _).mp (by rw [e2]; simp)).1⟩
    split
    · exact hatt true a i a3
    · exact hatt false b j b3

example := C40_merged 3 4 ([.diag 1 [.fin 5, .nan, .fin 2], .diag (-1) [.fin 3, .fin 4], .diag 0 [.fin 9, .fin 5, .pinf]] : List (Delivery ℚ))
  (by simp [Delivery.IsDiag]) (by simp [Delivery.Valid])

/-- **C40, anytime.** Delivering more diagonals never increases the merged profile, so a partial result is an upper bound. -/
theorem C40_monotone (h w : Nat) (ds more : List (Delivery K)) (hd : ∀ d ∈ ds ++ more, d.IsDiag) (hv : ∀ d ∈ ds ++ more, d.Valid h w) :
    ∃ p p' p'' : MP K, MP.initialise h w = .ok p ∧ p.run ds = .ok p' ∧ p'.run more = .ok p'' ∧
      ∀ c < w, ∃ v v'', (MP.merged p'.left p'.right)[c]? = some v ∧ (MP.merged p''.left p''.right)[c]? = some v'' ∧ v'' ≤ v := by
  obtain ⟨p, p', h1, h2, -, -, h3⟩ := C40_merged h w ds (fun d hm => hd d (by simp [hm])) (fun d hm => hv d (by simp [hm]))
  obtain ⟨q, p'', g1, g2, -, -, g3⟩ := C40_merged h w (ds ++ more) hd hv
  rw [h1] at g1; cases g1
  rw [MP.run_append] at g2
  simp only [h2, bind, Except.bind] at g2
  refine ⟨p, p', p'', h1, h2, g2, fun c hc => ?_⟩
  obtain ⟨-, -, v, i, -, -, a1, -, -, a2⟩ := h3 c hc
  obtain ⟨-, -, v'', i'', -, -, b1, -, -, b2⟩ := g3 c hc
  refine ⟨v, v'', a1, b1, ?_⟩
  rcases a2.attained with ⟨rfl, -⟩ | ⟨-, hm⟩
  · exact (Fl.le_pinf_iff _).mpr b2.number
  · have : (⟨i, c, v⟩ : Cell K) ∈ (Seen.init.run (ds ++ more)).cells := by
      have hns : ∀ ds : List (Delivery K), (∀ d ∈ ds, d.IsDiag) → ∀ d ∈ ds, ∀ n, d ≠ .shiftSeries n ∧ d ≠ .shiftQuery n := by
        intro ds hd d hm n
        have := hd d hm
        constructor <;> (rintro rfl; exact this)
      rw [Seen.run_noShift _ (hns _ hd)]
      rw [Seen.run_noShift _ (hns _ fun d hm => hd d (by simp [hm]))] at hm
      simp only [Seen.init, List.nil_append, List.map_append, List.flatten_append, List.mem_append] at hm ⊢
      exact Or.inl hm
    rcases b2.lower _ this rfl with h | h
    · exact absurd h a2.number
    · exact h

example := C40_monotone 3 4 ([.diag 1 [.fin 5, .nan, .fin 2], .diag (-1) [.fin 3, .fin 4]] : List (Delivery ℚ)) [.diag 0 [.fin 9, .fin 5, .pinf]]
  (by simp [Delivery.IsDiag]) (by simp [Delivery.Valid])

/-- C38 and C40 are not vacuous: diagonals with NaN, ties and repetitions on a 3 × 4 window, and what the model computes. -/
example : ∃ p p' : MP ℚ, MP.initialise 3 4 = .ok p ∧
    p.run [.diag 1 [.fin 5, .nan, .fin 2], .diag (-1) [.fin 3, .fin 4], .diag 0 [.fin 9, .fin 5, .pinf], .diag 1 [.fin 4, .fin 6, .fin 2]] = .ok p' ∧
    p'.left = [.fin 9, .fin 4, .fin 6, .fin 2] ∧ p'.leftIdx = [0, 0, 1, 2] ∧ p'.right = [.fin 3, .fin 4, .pinf, .pinf] ∧
    p'.rightIdx = [1, 2, -1, -1] ∧ MP.merged p'.left p'.right = [.fin 3, .fin 4, .fin 6, .fin 2] ∧
    MP.mergedIdx p'.left p'.right p'.leftIdx p'.rightIdx = [1, 2, 1, 2] :=
  ⟨_, _, rfl, by rfl, by rfl, by rfl, by rfl, by rfl, by rfl, by rfl⟩

example : ∀ d ∈ ([.diag 1 [.fin 5, .nan, .fin 2], .diag (-1) [.fin 3, .fin 4], .diag 0 [.fin 9, .fin 5, .pinf], .diag 1 [.fin 4, .fin 6, .fin 2]] :
    List (Delivery ℚ)), d.IsDiag ∧ d.Valid 3 4 := by
  simp [Delivery.IsDiag, Delivery.Valid]

end Verif
