import Verif.Lemmas.Profile
import Verif.Lemmas.ColumnCache
import Verif.Props.MatrixProfile

/-!
# `ShiftingMatrixProfileLR`: C41
-/

namespace Verif
open Spec
variable {K : Type} [LinearOrder K]

/-- A profile buffer pair holding `f`. -/
structure MPSide.Rep (s : MPSide K) (w : Nat) (f : Nat → Fl K × Int) : Prop where
  mp : s.mp.Good w
  pi : s.pi.Good w
  holds : Holds w f s.mp.items s.pi.items

theorem RB.Good.setSlice_ok {α : Type} {rb : RB α} {N : Nat} (h : rb.Good N) {a b : Int} {vals w : List α} (hp : pyAssign rb.items a b vals = .ok w) :
    ∃ rb', rb.setSlice a b vals = .ok rb' ∧ rb'.Good N ∧ rb'.items = w := by
  have := RB.setSlice_spec rb h.wf a b vals
  rw [hp] at this
  obtain ⟨rb', h1, h2, h3, h4, -, h5, -⟩ := this
  exact ⟨rb', h1, ⟨h2, by rw [h4, h.vmax], by rw [h5]; exact h.mem⟩, h3⟩

theorem RB.Good.setItem_ok {α : Type} {rb : RB α} {N : Nat} (h : rb.Good N) {i : Int} {x : α} {w : List α} (hp : pySet rb.items i x = .ok w) :
    ∃ rb', rb.setItem i x = .ok rb' ∧ rb'.Good N ∧ rb'.items = w := by
  have := RB.setItem_spec rb h.wf i x
  rw [hp] at this
  obtain ⟨rb', h1, h2, h3, h4, -, h5, -⟩ := this
  exact ⟨rb', h1, ⟨h2, by rw [h4, h.vmax], by rw [h5]; exact h.mem⟩, h3⟩

theorem RB.init_good_scale {α : Type} (scale : ℚ) (h1 : 1 ≤ scale) (h2 : scale ≤ 2) (data : List α) (hn : data ≠ []) (dt : Bool) (junk : List α)
    (hj : junk.length = capacity scale data.length) :
    ∃ rb, RB.init (some ([], data)) none dt junk = .ok rb ∧ rb.Good data.length ∧ rb.items = data := by
  have hg := RB.mkEmpty_good_scale scale h1 h2 [] data.length junk (List.length_pos_iff.mpr hn) hj
  obtain ⟨rb, hp, hg', hit, hl⟩ := hg.push data
  refine ⟨rb, ?_, hg', ?_⟩
  · have hl : (mkEmpty [] data.length junk).lead = [] := rfl
    simp [RB.init, pushArr, hp, hl, bind, Except.bind, pure, Except.pure]
  · rw [hit, mkEmpty_items, List.nil_append, lastN_of_le _ _ le_rfl]

namespace MPSide

theorem update_rep {s : MPSide K} {w : Nat} {f f' : Nat → Fl K × Int} (h : s.Rep w f) (vals : List (Fl K)) (idx : List Int) (a n : Nat)
    (hv : vals.length = n) (hi : idx.length = n) (ha : a + n ≤ w)
    (hin : ∀ (k : Nat) (v : Fl K) (i : Int), vals[k]? = some v → idx[k]? = some i → f' (a + k) = pick (f (a + k)) (v, i))
    (hout : ∀ c < w, ¬ (a ≤ c ∧ c < a + n) → f' c = f c) :
    ∃ s', s.update vals idx a (a + n) = .ok s' ∧ s'.Rep w f' := by
  obtain ⟨r, hr, mp', pi', h1, h2, h3⟩ := h.holds.update vals idx a n hv hi ha hin hout
  obtain ⟨rm, e1, g1, i1⟩ := h.mp.setSlice_ok h1
  obtain ⟨ri, e2, g2, i2⟩ := h.pi.setSlice_ok h2
  refine ⟨⟨rm, ri⟩, ?_, g1, g2, by simp only [i1, i2]; exact h3⟩
  unfold update
  simp only [hr, bind, Except.bind, e1, e2, pure, Except.pure]

/-- One part of a column: its entries are taken into account unless it contains a NaN. -/
theorem column_rep {s : MPSide K} {w : Nat} {f f' : Nat → Fl K × Int} (h : s.Rep w f) (c : Nat) (hc : c < w) (part : List (Fl K)) (hne : part ≠ [])
    (off : Nat) (offI : Int) (hoff : offI = off) (hf : (f c).1 ≠ .nan)
    (hin : f' c = if Fl.nan ∈ part then f c else (part.zipIdx.map fun x : Fl K × Nat => (x.1, ((x.2 + off : Nat) : Int))).foldl pick (f c))
    (hout : ∀ c' < w, c' ≠ c → f' c' = f c') :
    ∃ s', s.column c part offI = .ok s' ∧ s'.Rep w f' := by
  subst hoff
  have hget : pyGet s.mp.items (c : Int) = .ok (f c).1 := (pyGet_nat_ok _ _ _).mpr (h.holds.get hc).1
  have hsame : f' c = f c → s.Rep w f' := fun he => ⟨h.mp, h.pi, h.holds.congr fun c' hc' => by
    by_cases hcc : c' = c
    · subst hcc; exact he
    · exact hout c' hc' hcc⟩
  by_cases hn : Fl.nan ∈ part
  · obtain ⟨m, hm, -, hnan, -⟩ := npMin_spec part hne
    have hmn := hnan.mpr hn
    refine ⟨s, ?_, hsame (by rw [hin, if_pos hn])⟩
    unfold column
    simp only [hm, bind, Except.bind, hget, hmn]
    have : Fl.ltF .nan (f c).1 = false := by rw [Fl.ltF_false_iff _ _ hf]; simp
    simp [this, pure, Except.pure]
  · obtain ⟨m, j, hm, hj, -, -, -, hfold⟩ := foldPick_column part hne hn off (f c) hf
    rw [if_neg hn, hfold] at hin
    by_cases hlt : Fl.ltF m (f c).1 = true
    · have hin' : f' c = (m, ((j + off : Nat) : Int)) := by rw [hin]; simp [pick, hlt]
      obtain ⟨mp', pi', h1, h2, h3⟩ := h.holds.set c hc (m, ((j + off : Nat) : Int)) hin' hout
      obtain ⟨rm, e1, g1, i1⟩ := h.mp.setItem_ok h1
      obtain ⟨ri, e2, g2, i2⟩ := h.pi.setItem_ok h2
      refine ⟨⟨rm, ri⟩, ?_, g1, g2, by simp only [i1, i2]; exact h3⟩
      unfold column
      push_cast at e2
      simp only [hm, bind, Except.bind, hget, hlt, if_true, e1, hj, e2, pure, Except.pure]
    · refine ⟨s, ?_, hsame (by rw [hin]; simp [pick, hlt])⟩
      unfold column
      simp only [hm, bind, Except.bind, hget, hlt, pure, Except.pure]
      rfl

theorem shift_rep {s : MPSide K} {w : Nat} {f f' : Nat → Fl K × Int} (h : s.Rep w f) (n : Nat) (hin : ∀ c, c + n < w → f' c = f (c + n))
    (hout : ∀ c < w, w ≤ c + n → f' c = (.pinf, -1)) : ∃ s', s.shift n = .ok s' ∧ s'.Rep w f' := by
  obtain ⟨rm, e1, g1, i1, -⟩ := h.mp.push (List.replicate n .pinf)
  obtain ⟨ri, e2, g2, i2, -⟩ := h.pi.push (List.replicate n (-1))
  obtain ⟨hl1, hl2⟩ := h.holds.len
  refine ⟨⟨rm, ri⟩, ?_, g1, g2, ?_⟩
  · unfold shift
    simp only [bind, Except.bind, e1, e2, pure, Except.pure]
  · refine Holds.of_get (by simp only [i1]; simp; omega) (by simp only [i2]; simp; omega) fun c hc => ?_
    simp only [i1, i2, lastN, List.length_append, List.length_replicate, hl1, hl2]
    rw [show w + n - w = n by omega]
    simp only [List.getElem?_drop, List.getElem?_append, hl1, hl2, List.getElem?_replicate]
    by_cases hcn : c + n < w
    · have := h.holds.get hcn
      rw [if_pos (by omega), if_pos (by omega), Nat.add_comm n c, this.1, this.2, hin c hcn]; simp
    · rw [if_neg (show ¬ n + c < w by omega), if_neg (show ¬ n + c < w by omega), if_pos (show n + c - w < n by omega),
        if_pos (show n + c - w < n by omega), hout c hc (by omega)]
      simp

end MPSide

namespace ShiftingMP

/-- The calls of a history made on the model. -/
def deliver (p : ShiftingMP K) : Delivery K → Except PyErr (ShiftingMP K)
  | .diag d vals => p.processDiagonal d [vals]
  | .column c vals => p.processColumn c [vals]
  | .shiftSeries n => p.shiftSeries n
  | .shiftQuery n => p.shiftQuery n

/-- A history on the model. -/
def run (p : ShiftingMP K) (ds : List (Delivery K)) : Except PyErr (ShiftingMP K) := ds.foldlM deliver p

/-- What the profile at window column `c` must hold. -/
def Want (t : Seen K) (left : Bool) (c : Nat) : Fl K × Int := best (entriesFor t.cells ((c + t.ss : Nat) : Int) left)

/-- Invariant. -/
structure Inv (p : ShiftingMP K) (h w : Nat) (t : Seen K) : Prop where
  rangeGood : p.range.Good (max h w)
  range : p.range.items = (List.range (max h w)).map fun i : Nat => ((i + t.qs : Nat) : Int)
  left : p.left.Rep w (Want t true)
  right : p.right.Rep w (Want t false)
  ss : p.seriesShift = t.ss
  qs : p.queryShift = t.qs
  /-- nothing has been delivered beyond the window -/
  old : ∀ x ∈ t.cells, x.col < ((w + t.ss : Nat) : Int)

theorem Want.number (t : Seen K) (left : Bool) (c : Nat) : (Want t left c).1 ≠ .nan := (best_isBest _).number

theorem shiftSeries_inv {p : ShiftingMP K} {h w : Nat} {t : Seen K} (hp : p.Inv h w t) (n : Nat) :
    ∃ p', p.shiftSeries n = .ok p' ∧ p'.Inv h w { t with ss := t.ss + n } := by
  by_cases hn : n = 0
  · subst hn
    exact ⟨p, by simp [shiftSeries], hp.rangeGood, hp.range, hp.left, hp.right, hp.ss, hp.qs, hp.old⟩
  have key : ∀ left, (∀ c, c + n < w → Want { t with ss := t.ss + n } left c = Want t left (c + n)) ∧
      (∀ c < w, w ≤ c + n → Want { t with ss := t.ss + n } left c = (.pinf, -1)) := by
    intro left
    constructor
    · intro c _
      simp only [Want]
      rw [show c + (t.ss + n) = c + n + t.ss by omega]
    · intro c _ hw
      simp only [Want]
      rw [show entriesFor t.cells _ left = [] from ?_]; rfl
      simp only [entriesFor, List.map_eq_nil_iff, List.filter_eq_nil_iff]
      intro x hx
      have := hp.old x hx
      simp only [Bool.and_eq_true, decide_eq_true_eq]
      omega
  obtain ⟨l, h1, h2⟩ := MPSide.shift_rep hp.left n (key true).1 (key true).2
  obtain ⟨r, h3, h4⟩ := MPSide.shift_rep hp.right n (key false).1 (key false).2
  refine ⟨{ p with left := l, right := r, seriesShift := p.seriesShift + n }, ?_, hp.rangeGood, hp.range, h2, h4, ?_, hp.qs, ?_⟩
  · unfold shiftSeries
    rw [if_neg (by omega), if_neg (by omega)]
    simp only [Int.toNat_natCast, h1, h3, bind, Except.bind, pure, Except.pure]
  · simp [hp.ss]
  · intro x hx
    have := hp.old x hx
    simp only; omega

theorem shiftQuery_inv {p : ShiftingMP K} {h w : Nat} {t : Seen K} (hp : p.Inv h w t) (n : Nat) :
    ∃ p', p.shiftQuery n = .ok p' ∧ p'.Inv h w { t with qs := t.qs + n } := by
  by_cases hn : n = 0
  · subst hn
    exact ⟨p, by simp [shiftQuery], hp.rangeGood, hp.range, hp.left, hp.right, hp.ss, hp.qs, hp.old⟩
  have hR := hp.rangeGood.pos
  set R := max h w with hRdef
  have hlast : pyGet p.range.items (-1) = .ok (((R - 1 + t.qs : Nat) : Int)) := by
    unfold pyGet
    have : p.range.items.length = R := by rw [hp.range]; simp [hRdef]
    simp only [show (-1 : Int) < 0 by omega, if_true, this]
    have h1 : ¬ ((R : Int) + -1 < 0) := by omega
    have h2 : ((R : Int) + -1).toNat = R - 1 := by omega
    rw [if_neg h1, h2, hp.range, List.getElem?_map, List.getElem?_range (by omega)]
    rfl
  obtain ⟨rb, e1, g1, i1, -⟩ := hp.rangeGood.push (pyRange (((R - 1 + t.qs : Nat) : Int) + 1) (((R - 1 + t.qs : Nat) : Int) + 1 + n))
  refine ⟨{ p with range := rb, queryShift := p.queryShift + n }, ?_, g1, ?_, hp.left, hp.right, hp.ss, ?_, hp.old⟩
  · unfold shiftQuery
    rw [if_neg (by omega)]
    simp only [hlast, bind, Except.bind, e1, pure, Except.pure]
  · simp only [i1, hp.range, pyRange]
    rw [show ((((R - 1 + t.qs : Nat) : Int) + 1 + n) - (((R - 1 + t.qs : Nat) : Int) + 1)).toNat = n by omega]
    apply List.ext_getElem?
    intro i
    simp only [lastN, List.length_append, List.length_map, List.length_range]
    rw [show R + n - R = n by omega]
    simp only [List.getElem?_drop, List.getElem?_append, List.length_map, List.length_range, List.getElem?_map]
    rcases Nat.lt_or_ge i R with hi | hi
    · rw [List.getElem?_range hi]
      by_cases hin : n + i < R
      · rw [if_pos hin, List.getElem?_range hin]
        simp; omega
      · rw [if_neg hin, List.getElem?_range (by omega)]
        simp; omega
    · rw [if_neg (by omega), List.getElem?_eq_none (by simp; omega), List.getElem?_eq_none (by simp; omega)]
      rfl
  · simp [hp.qs]

theorem processDiagonal_inv {p : ShiftingMP K} {h w : Nat} {t : Seen K} (hp : p.Inv h w t) (d : Int) (vals : List (Fl K))
    (hv : (Delivery.diag d vals).Valid h w) :
    ∃ p', p.processDiagonal d [vals] = .ok p' ∧ p'.Inv h w { t with cells := t.cells ++ (Delivery.diag d vals).cells t.ss t.qs } := by
  obtain ⟨hv1, hv2⟩ := hv
  obtain ⟨hi, hrow⟩ := diagRows_ok p.range.items (max h w) t.qs hp.range d vals.length (by omega)
  set t' : Seen K := { t with cells := t.cells ++ (Delivery.diag d vals).cells t.ss t.qs } with ht'
  have hget : pyGet [vals] 0 = .ok vals := rfl
  have hwant : ∀ left (c : Nat), Want t' left c = (if d.toNat ≤ c ∧ decide (0 ≤ d + t.ss - t.qs) = left then
        (vals[c - d.toNat]?.map fun v => (v, (((-d).toNat + (c - d.toNat) + t.qs : Nat) : Int))).toList else []).foldl pick (Want t left c) := by
    intro left c
    simp only [Want, ht', entriesFor_append, best_append, entriesFor_diag]
  have hold : ∀ x ∈ t'.cells, x.col < ((w + t'.ss : Nat) : Int) := by
    intro x hx
    rcases List.mem_append.mp hx with hx | hx
    · exact hp.old x hx
    · obtain ⟨⟨v, k⟩, hy, rfl⟩ := List.mem_map.mp hx
      have := List.mem_zipIdx hy
      simp only [ht'] at this ⊢
      omega
  have hupd : ∀ left, decide (0 ≤ d + t.ss - t.qs) = left →
      (∀ (k : Nat) (v : Fl K) (i : Int), vals[k]? = some v → (diagRows p.range.items d vals.length)[k]? = some i →
        Want t' left (d.toNat + k) = pick (Want t left (d.toNat + k)) (v, i)) ∧
      (∀ c < w, ¬ (d.toNat ≤ c ∧ c < d.toNat + vals.length) → Want t' left c = Want t left c) := by
    intro left hl
    constructor
    · intro k v i h1 h2
      rw [hwant, if_pos ⟨by omega, hl⟩, hrow k i h2]
      simp [h1]
    · intro c hc hn
      rw [hwant]
      split
      · have : vals[c - d.toNat]? = none := by simp; omega
        simp [this]
      · rfl
  have hkeep : ∀ left, decide (0 ≤ d + t.ss - t.qs) ≠ left → ∀ c < w, Want t' left c = Want t left c := by
    intro left hl c _
    rw [hwant, if_neg (by tauto)]; rfl
  by_cases hd : 0 ≤ d + t.ss - t.qs
  · obtain ⟨h1, h2⟩ := hupd true (by simpa using hd)
    obtain ⟨s, e, hs⟩ := MPSide.update_rep hp.left vals _ d.toNat vals.length rfl hi (by omega) h1 h2
    refine ⟨{ p with left := s }, ?_, hp.rangeGood, hp.range, hs, ⟨hp.right.mp, hp.right.pi, hp.right.holds.congr (hkeep false (by simpa using hd))⟩,
      hp.ss, hp.qs, hold⟩
    have : d + (p.seriesShift - p.queryShift) ≥ 0 := by rw [hp.ss, hp.qs]; omega
    unfold processDiagonal
    simp only [hget, bind, Except.bind, diagCols_ok, this, if_true, e, pure, Except.pure]
  · obtain ⟨h1, h2⟩ := hupd false (by simpa using hd)
    obtain ⟨s, e, hs⟩ := MPSide.update_rep hp.right vals _ d.toNat vals.length rfl hi (by omega) h1 h2
    refine ⟨{ p with right := s }, ?_, hp.rangeGood, hp.range, ⟨hp.left.mp, hp.left.pi, hp.left.holds.congr (hkeep true (by simpa using hd))⟩, hs,
      hp.ss, hp.qs, hold⟩
    have : ¬ d + (p.seriesShift - p.queryShift) ≥ 0 := by rw [hp.ss, hp.qs]; omega
    unfold processDiagonal
    simp only [hget, bind, Except.bind, diagCols_ok, this, if_false, e, pure, Except.pure]

omit [LinearOrder K] in
/-- The part of a column that counts on one side. -/
theorem entriesFor_effective (c : Nat) (vals : List (Fl K)) (ss qs : Nat) (left : Bool) :
    (∀ c', c' ≠ c → entriesFor ((Delivery.column c vals).effective ss qs) ((c' + ss : Nat) : Int) left = []) ∧
    ((∃ i, (Fl.nan, i) ∈ entriesFor ((Delivery.column c vals).cells ss qs) ((c + ss : Nat) : Int) left) →
      entriesFor ((Delivery.column c vals).effective ss qs) ((c + ss : Nat) : Int) left = []) ∧
    ((∀ i, (Fl.nan, i) ∉ entriesFor ((Delivery.column c vals).cells ss qs) ((c + ss : Nat) : Int) left) →
      entriesFor ((Delivery.column c vals).effective ss qs) ((c + ss : Nat) : Int) left =
        entriesFor ((Delivery.column c vals).cells ss qs) ((c + ss : Nat) : Int) left) := by
  have hcol : ∀ x ∈ (Delivery.column c vals).cells ss qs, x.col = ((c + ss : Nat) : Int) := by
    intro x hx
    obtain ⟨y, -, rfl⟩ := List.mem_map.mp hx
    rfl
  set cs := (Delivery.column c vals).cells ss qs with hcs
  have heff : (Delivery.column c vals).effective ss qs =
      cs.filter fun x => !cs.any fun y => isNaN y.val && (decide (y.row ≤ y.col) == decide (x.row ≤ x.col)) := rfl
  refine ⟨?_, ?_, ?_⟩
  · intro c' hc'
    simp only [entriesFor, List.map_eq_nil_iff, List.filter_eq_nil_iff, heff]
    intro x hx
    have := hcol x (List.mem_filter.mp hx).1
    simp only [Bool.and_eq_true, decide_eq_true_eq]
    omega
  · rintro ⟨i, hi⟩
    obtain ⟨h1, h2⟩ := (mem_entriesFor _ _ _ _ _).mp hi
    simp only [entriesFor, List.map_eq_nil_iff, List.filter_eq_nil_iff, heff]
    intro x hx hpx
    obtain ⟨hx1, hx2⟩ := List.mem_filter.mp hx
    simp only [Bool.and_eq_true, beq_iff_eq] at hpx
    simp only [Bool.not_eq_true', List.any_eq_false] at hx2
    have := hx2 _ h1
    simp only [isNaN, h2, hpx.2, Bool.true_and, BEq.rfl, not_true] at this
  · intro hno
    simp only [entriesFor, heff, List.filter_filter]
    congr 1
    apply List.filter_congr
    intro x hx
    by_cases hpx : (decide (x.col = ((c + ss : Nat) : Int)) && (decide (x.row ≤ x.col) == left)) = true
    · rw [hpx, Bool.true_and]
      simp only [Bool.not_eq_true', List.any_eq_false]
      rintro ⟨yr, yc, yv⟩ hy
      simp only [Bool.and_eq_true, beq_iff_eq, not_and] at hpx ⊢
      intro hyn hys
      have hyc := hcol _ hy
      simp only at hyc
      subst hyc
      cases yv <;> simp [isNaN] at hyn
      exact hno yr ((mem_entriesFor _ _ _ _ _).mpr ⟨hy, by rw [hys]; exact hpx.2⟩)
    · rw [Bool.not_eq_true] at hpx
      rw [hpx]; rfl

theorem processColumn_inv {p : ShiftingMP K} {h w : Nat} {t : Seen K} (hp : p.Inv h w t) (c : Nat) (vals : List (Fl K))
    (hv : (Delivery.column c vals).Valid h w) :
    ∃ p', p.processColumn c [vals] = .ok p' ∧ p'.Inv h w { t with cells := t.cells ++ (Delivery.column c vals).effective t.ss t.qs } := by
  obtain ⟨hc, hne, hlen⟩ := hv
  have hpos : 0 < vals.length := List.length_pos_iff.mpr hne
  set t' : Seen K := { t with cells := t.cells ++ (Delivery.column c vals).effective t.ss t.qs } with ht'
  have hget : pyGet [vals] 0 = .ok vals := rfl
  set B := c + 1 + t.ss - t.qs with hB
  have hborder : max 0 ((c : Int) + 1 + (p.seriesShift - p.queryShift)) = (B : Int) := by rw [hp.ss, hp.qs]; omega
  have hwant : ∀ left (c' : Nat), Want t' left c' = (entriesFor ((Delivery.column c vals).effective t.ss t.qs) ((c' + t.ss : Nat) : Int) left).foldl pick
      (Want t left c') := by
    intro left c'
    simp only [Want, ht', entriesFor_append, best_append]
  have hout : ∀ left, ∀ c' < w, c' ≠ c → Want t' left c' = Want t left c' := by
    intro left c' _ hne
    rw [hwant, (entriesFor_effective c vals t.ss t.qs left).1 c' hne]; rfl
  have hold : ∀ x ∈ t'.cells, x.col < ((w + t'.ss : Nat) : Int) := by
    intro x hx
    rcases List.mem_append.mp hx with hx | hx
    · exact hp.old x hx
    · obtain ⟨⟨v, k⟩, hy, rfl⟩ := List.mem_map.mp (List.mem_filter.mp hx).1
      simp only [ht']; omega
  -- a part of the column, on either side
  have hpart : ∀ (left : Bool) (part : List (Fl K)) (off : Nat),
      entriesFor ((Delivery.column c vals).cells t.ss t.qs) ((c + t.ss : Nat) : Int) left =
        (part.zipIdx.map fun x : Fl K × Nat => (x.1, ((x.2 + off : Nat) : Int))) →
      Want t' left c = if Fl.nan ∈ part then Want t left c else
        (part.zipIdx.map fun x : Fl K × Nat => (x.1, ((x.2 + off : Nat) : Int))).foldl pick (Want t left c) := by
    intro left part off he
    obtain ⟨-, e2, e3⟩ := entriesFor_effective c vals t.ss t.qs left
    rw [he] at e2 e3
    rw [hwant]
    split
    · rename_i hn
      obtain ⟨j, hj⟩ := List.mem_iff_getElem?.mp hn
      rw [e2 ⟨_, List.mem_map.mpr ⟨(Fl.nan, j), by rw [List.mem_zipIdx_iff_getElem?]; exact hj, rfl⟩⟩]; rfl
    · rename_i hn
      rw [e3]
      intro i hi
      obtain ⟨⟨v, j⟩, hy, e⟩ := List.mem_map.mp hi
      simp only [Prod.mk.injEq] at e
      obtain ⟨rfl, -⟩ := e
      rw [List.mem_zipIdx_iff_getElem?] at hy
      exact hn (List.mem_of_getElem? hy)
  have hleft := hpart true (vals.take B) t.qs (entriesFor_column_left c vals t.ss t.qs)
  have hright := hpart false (vals.drop B) (B + t.qs) (entriesFor_column_right c vals t.ss t.qs)
  have hL : ∃ l, p.columnLeft c vals (B : Int) = .ok l ∧ l.Rep w (Want t' true) := by
    unfold columnLeft
    by_cases hb : 0 < B
    · rw [if_pos (by omega), pyTo_nat]
      exact MPSide.column_rep hp.left c hc (vals.take B) (by simp [hne]; omega) t.qs _ hp.qs (Want.number _ _ _) hleft (hout true)
    · rw [if_neg (by omega)]
      refine ⟨p.left, rfl, hp.left.mp, hp.left.pi, hp.left.holds.congr fun c' hc' => ?_⟩
      by_cases he : c' = c
      · subst he
        rw [hleft, show B = 0 by omega]; simp
      · exact hout true c' hc' he
  have hR : ∃ r, p.columnRight c vals (B : Int) = .ok r ∧ r.Rep w (Want t' false) := by
    unfold columnRight
    by_cases hb : B < vals.length
    · rw [if_pos (by omega), pyFrom_nat]
      exact MPSide.column_rep hp.right c hc (vals.drop B) (by simpa using hb) (B + t.qs) _ (by rw [hp.qs]; push_cast; ring) (Want.number _ _ _) hright
        (hout false)
    · rw [if_neg (by omega)]
      refine ⟨p.right, rfl, hp.right.mp, hp.right.pi, hp.right.holds.congr fun c' hc' => ?_⟩
      by_cases he : c' = c
      · subst he
        rw [hright, List.drop_eq_nil_of_le (by omega)]; simp
      · exact hout false c' hc' he
  obtain ⟨l, e1, hl⟩ := hL
  obtain ⟨r, e2, hr⟩ := hR
  refine ⟨{ p with left := l, right := r }, ?_, hp.rangeGood, hp.range, hl, hr, hp.ss, hp.qs, hold⟩
  unfold processColumn
  simp only [hget, bind, Except.bind, hborder, e1, e2, pure, Except.pure]

theorem run_inv {h w : Nat} (ds : List (Delivery K)) (hv : ∀ d ∈ ds, d.Valid h w) (t : Seen K) (p : ShiftingMP K) (hp : p.Inv h w t) :
    ∃ p', p.run ds = .ok p' ∧ p'.Inv h w (t.runWith Delivery.effective ds) := by
  induction ds generalizing t p with
  | nil => exact ⟨p, rfl, hp⟩
  | cons d ds ih =>
    have : ∃ p1, p.deliver d = .ok p1 ∧ p1.Inv h w (t.stepWith Delivery.effective d) := by
      have hvd := hv d (by simp)
      cases d with
      | diag k vals => exact processDiagonal_inv hp k vals hvd
      | column c vals => exact processColumn_inv hp c vals hvd
      | shiftSeries n => exact shiftSeries_inv hp n
      | shiftQuery n => exact shiftQuery_inv hp n
    obtain ⟨p1, h1, h2⟩ := this
    obtain ⟨p2, h3, h4⟩ := ih (fun d hd => hv d (by simp [hd])) _ p1 h2
    refine ⟨p2, ?_, h4⟩
    show (do let p ← p.deliver d; p.run ds) = _
    simp only [h1, bind, Except.bind, h3]

theorem initialise_inv (memF : Nat → List (Fl K)) (memI : Nat → List Int) (hF : ∀ n, (memF n).length = n) (hI : ∀ n, (memI n).length = n) (scale : ℚ)
    (h1 : 1 ≤ scale) (h2 : scale ≤ 2) (h w : Nat) (hw : 0 < w) :
    ∃ p : ShiftingMP K, initialise memF memI scale h w = .ok p ∧ p.Inv h w Seen.init := by
  obtain ⟨p0, e0, r0⟩ := MP.initialise_rep (K := K) h w
  have ne : ∀ {α : Type} (l : List α), l.length = w → l ≠ [] := by
    rintro α l hl rfl
    simp at hl; omega
  have hrl : p0.range.length = max h w := by rw [r0.range]; simp
  obtain ⟨l1, l2⟩ := r0.left.len
  obtain ⟨l3, l4⟩ := r0.right.len
  obtain ⟨rg, a1, a2, a3⟩ := RB.init_good_scale scale h1 h2 p0.range (by intro hc; rw [hc] at hrl; simp at hrl; omega) false (memI _) (hI _)
  obtain ⟨lm, b1, b2, b3⟩ := RB.init_good_scale scale h1 h2 p0.left (ne _ l1) false (memF _) (hF _)
  obtain ⟨li, c1, c2, c3⟩ := RB.init_good_scale scale h1 h2 p0.leftIdx (ne _ l2) false (memI _) (hI _)
  obtain ⟨rm, d1, d2, d3⟩ := RB.init_good_scale scale h1 h2 p0.right (ne _ l3) false (memF _) (hF _)
  obtain ⟨ri, f1, f2, f3⟩ := RB.init_good_scale scale h1 h2 p0.rightIdx (ne _ l4) false (memI _) (hI _)
  refine ⟨⟨rg, ⟨lm, li⟩, ⟨rm, ri⟩, 0, 0⟩, ?_, ?_, ?_, ⟨?_, ?_, ?_⟩, ⟨?_, ?_, ?_⟩, rfl, rfl, by simp [Seen.init]⟩
  · unfold initialise
    rw [if_neg (not_lt.mpr h1)]
    simp only [e0, initSide, bind, Except.bind, a1, b1, c1, d1, f1, pure, Except.pure]
  · simpa [hrl] using a2
  · simp only [a3, r0.range]; rfl
  · simpa [l1] using b2
  · simpa [l2] using c2
  · simp only [b3, c3]; exact r0.left
  · simpa [l3] using d2
  · simpa [l4] using f2
  · simp only [d3, f3]; exact r0.right

end ShiftingMP

/-- **C41.** `ShiftingMatrixProfileLR` of size `h` × `w` after any history of columns, (parts of) diagonals and shifts of series and query, with
any values: at window column `c` (stream column `c + ss`) the left (right) profile is the smallest non-NaN value ever delivered for that stream
column at a stream row on or above (below) the stream main diagonal, and the index is the stream row of the first delivery of it; +inf and -1
when nothing below +inf was delivered. The part of a delivered column on one side of the diagonal is ignored if it contains a NaN
(`Delivery.effective`). -/
theorem C41_shifting_profile (memF : Nat → List (Fl K)) (memI : Nat → List Int) (hF : ∀ n, (memF n).length = n) (hI : ∀ n, (memI n).length = n)
    (scale : ℚ) (h1 : 1 ≤ scale) (h2 : scale ≤ 2) (h w : Nat) (hw : 0 < w) (ds : List (Delivery K)) (hv : ∀ d ∈ ds, d.Valid h w) :
    ∃ p p' : ShiftingMP K, ShiftingMP.initialise memF memI scale h w = .ok p ∧ p.run ds = .ok p' ∧
      let t := Seen.init.runWith Delivery.effective ds
      p'.left.mp.items.length = w ∧ p'.right.mp.items.length = w ∧
      ∀ c < w, (∃ v i, p'.left.mp.items[c]? = some v ∧ p'.left.pi.items[c]? = some i ∧ IsBest (entriesFor t.cells ((c + t.ss : Nat) : Int) true) v i) ∧
        (∃ v i, p'.right.mp.items[c]? = some v ∧ p'.right.pi.items[c]? = some i ∧ IsBest (entriesFor t.cells ((c + t.ss : Nat) : Int) false) v i) := by
  obtain ⟨p, e1, hp⟩ := ShiftingMP.initialise_inv (K := K) memF memI hF hI scale h1 h2 h w hw
  obtain ⟨p', e2, hp'⟩ := ShiftingMP.run_inv ds hv _ p hp
  refine ⟨p, p', e1, e2, hp'.left.holds.len.1, hp'.right.holds.len.1, fun c hc => ⟨?_, ?_⟩⟩
  · exact ⟨_, _, (hp'.left.holds.get hc).1, (hp'.left.holds.get hc).2, best_isBest _⟩
  · exact ⟨_, _, (hp'.right.holds.get hc).1, (hp'.right.holds.get hc).2, best_isBest _⟩

example := C41_shifting_profile (fun n => List.replicate n (.fin 7)) (fun n => List.replicate n 3) (by simp) (by simp) 2 (by norm_num) (by norm_num) 3 3 (by omega)
  ([.column 0 [.fin 1, .fin 5, .fin 2], .shiftSeries 2, .diag (-1) [.fin 1, .fin 6], .shiftQuery 1, .column 1 [.fin 9, .fin 2, .fin 0], .shiftQuery 3] :
    List (Delivery ℚ)) (by simp [Delivery.Valid])

omit [LinearOrder K] in
theorem Spec.effective_of_clean (d : Delivery K) (h : d.ColumnClean) (ss qs : Nat) : d.effective ss qs = d.cells ss qs := by
  cases d with
  | column c vals =>
    have heff : (Delivery.column c vals).effective ss qs = ((Delivery.column c vals).cells ss qs).filter fun x =>
        !((Delivery.column c vals).cells ss qs).any fun y => isNaN y.val && (decide (y.row ≤ y.col) == decide (x.row ≤ x.col)) := rfl
    rw [heff, List.filter_eq_self]
    intro x _
    simp only [Bool.not_eq_true', List.any_eq_false]
    intro y hy
    obtain ⟨⟨v, j⟩, hz, rfl⟩ := List.mem_map.mp hy
    rw [List.mem_zipIdx_iff_getElem?] at hz
    have : v ≠ .nan := fun hv => h (hv ▸ List.mem_of_getElem? hz)
    cases v <;> simp [isNaN] at this ⊢
  | _ => rfl

omit [LinearOrder K] in
theorem Spec.run_of_clean (ds : List (Delivery K)) (h : ∀ d ∈ ds, d.ColumnClean) (t : Seen K) : t.runWith Delivery.effective ds = t.run ds := by
  induction ds generalizing t with
  | nil => rfl
  | cons d ds ih =>
    show (t.stepWith Delivery.effective d).runWith Delivery.effective ds = (t.stepWith Delivery.cells d).runWith Delivery.cells ds
    have : t.stepWith Delivery.effective d = t.stepWith Delivery.cells d := by
      have := effective_of_clean d (h d (by simp)) t.ss t.qs
      cases d <;> simp only [Seen.stepWith, this]
    rw [this]
    exact ih (fun d hd => h d (by simp [hd])) _

/-- **C41, no NaN in columns.** Then everything ever delivered counts. -/
theorem C41_clean_columns (memF : Nat → List (Fl K)) (memI : Nat → List Int) (hF : ∀ n, (memF n).length = n) (hI : ∀ n, (memI n).length = n)
    (scale : ℚ) (h1 : 1 ≤ scale) (h2 : scale ≤ 2) (h w : Nat) (hw : 0 < w) (ds : List (Delivery K)) (hv : ∀ d ∈ ds, d.Valid h w)
    (hn : ∀ d ∈ ds, d.ColumnClean) :
    ∃ p p' : ShiftingMP K, ShiftingMP.initialise memF memI scale h w = .ok p ∧ p.run ds = .ok p' ∧
      let t := Seen.init.run ds
      ∀ c < w, (∃ v i, p'.left.mp.items[c]? = some v ∧ p'.left.pi.items[c]? = some i ∧ IsBest (entriesFor t.cells ((c + t.ss : Nat) : Int) true) v i) ∧
        (∃ v i, p'.right.mp.items[c]? = some v ∧ p'.right.pi.items[c]? = some i ∧ IsBest (entriesFor t.cells ((c + t.ss : Nat) : Int) false) v i) := by
  obtain ⟨p, p', e1, e2, -, -, e3⟩ := C41_shifting_profile memF memI hF hI scale h1 h2 h w hw ds hv
  rw [run_of_clean ds hn] at e3
  exact ⟨p, p', e1, e2, e3⟩

example := C41_clean_columns (fun n => List.replicate n (.fin 7)) (fun n => List.replicate n 3) (by simp) (by simp) 2 (by norm_num) (by norm_num) 3 3 (by omega)
  ([.column 0 [.fin 1, .fin 5, .fin 2], .shiftSeries 2, .diag (-1) [.fin 1, .fin 6], .shiftQuery 1, .column 1 [.fin 9, .fin 2, .fin 0], .shiftQuery 3] :
    List (Delivery ℚ)) (by simp [Delivery.Valid]) (by simp [Delivery.ColumnClean])

/-- A run with shifts of both axes: contents of the left and right profile and index. -/
def shiftingExample : Except PyErr (List (List (Fl ℚ)) × List (List Int)) := do
  let p ← ShiftingMP.initialise (fun n => List.replicate n .nan) (fun n => List.replicate n 77) 2 3 3
  let p ← p.run [.column 0 [.fin 1, .fin 5, .fin 2], .column 2 [.fin 4, .fin 3, .fin 8], .shiftSeries 2, .diag (-1) [.fin 1, .fin 6], .shiftQuery 1,
    .column 1 [.fin 9, .fin 2, .fin 0], .shiftQuery 3]
  return ([p.left.mp.items, p.right.mp.items], [p.left.pi.items, p.right.pi.items])

example : shiftingExample.map Prod.fst = .ok [[.fin 1, .fin 0, .pinf], [.pinf, .pinf, .pinf]] := by decide +kernel
example : shiftingExample.map Prod.snd = .ok [[1, 3, -1], [-1, -1, -1]] := by decide +kernel

example : ∀ d ∈ ([.column 0 [.fin 1, .fin 5, .fin 2], .column 2 [.fin 4, .fin 3, .fin 8], .shiftSeries 2, .diag (-1) [.fin 1, .fin 6], .shiftQuery 1,
    .column 1 [.fin 9, .fin 2, .fin 0], .shiftQuery 3] : List (Delivery ℚ)), d.Valid 3 3 ∧ d.ColumnClean := by
  simp [Delivery.Valid, Delivery.ColumnClean]

/-- The finite values next to a NaN of a column are indeed forgotten: the left profile stays at +inf although 1 was delivered in row 0. -/
def shiftingNaN : Except PyErr (List (Fl ℚ)) := do
  let p ← ShiftingMP.initialise (fun n => List.replicate n .nan) (fun n => List.replicate n 77) 2 2 2
  let p ← p.run [.column 1 [.fin 1, .nan]]
  return p.left.mp.items

theorem C41_nan_column : shiftingNaN = .ok [.pinf, .pinf] ∧
    ¬ IsBest (entriesFor ((Seen.init (K := ℚ)).run [.column 1 [.fin 1, .nan]]).cells 1 true) .pinf (-1) := by
  refine ⟨by decide +kernel, fun h => ?_⟩
  have := h.lower (.fin 1, 0) (by simp [entriesFor, Seen.run, Seen.runWith, Seen.stepWith, Seen.init, Delivery.cells])
  simp at this
  exact absurd (Fl.fin_lt_pinf (1 : ℚ)) (not_lt.mpr this)

end Verif
