import Verif.Props.RoundedDiagonal

/-! Sequences of calls of the Euclidean generator in floating point. -/

namespace Verif
open Spec

namespace Rounded
variable {K : Type} [Field K] [LinearOrder K] {rnd : K → K} {dots : Dots K} {mem : Nat → List (Fl K)} {sq : K → K}

/-- A fully calculated squared distance from the three dot products. -/
def expand (rnd : K → K) (a b c : K) : K :=
  let d := rnd (rnd (a - rnd (2 * b)) + c)
  if d < rnd Eucl.eps then 0 else d

/-- The square of the difference of two points. -/
def diff2 (rnd : K → K) (x y : K) : K := rnd (rnd (x - y) * rnd (x - y))

theorem term_fin (x y : K) : term rnd (.fin x) (.fin y) = .fin (diff2 rnd x y) := by
  simp [term, square, sub, fl, diff2, Fl.square]

/-- `_euclidean_distance_squared` gives one value per window. -/
theorem sqDist_rel (hdots : dots.Ok rnd) (m : Nat) (hm : 0 < m) (R : K → List K → List K → Prop) (x w : List K) (hw : w.length = m)
    (hx : m ≤ x.length)
    (hR : ∀ win ∈ windows m x, ∀ a b c, DotEval rnd (win.zip win) a → DotEval rnd (win.zip w) b → DotEval rnd (w.zip w) c →
      R (expand rnd a b c) win w) : FullRel m R (sqDist rnd dots) x w := by
  unfold FullRel sqDist
  rw [List.length_map, hw, slidingWindows_ok _ _ hm (by rw [List.length_map]; exact hx), windows_map]
  simp only [bind, Except.bind, pure, Except.pure, List.map_map]
  refine ⟨_, rfl, ?_⟩
  unfold Row
  rw [List.forall₂_map_left_iff, List.forall₂_same]
  intro win hwin
  have hwl := mem_windows_length hwin
  have hne : win ≠ [] := by intro h; rw [h] at hwl; simp at hwl; omega
  obtain ⟨a, a1, a2⟩ := hdots.self win hne
  obtain ⟨b, b1, b2⟩ := hdots.rows win w hne (by rw [hwl, hw])
  obtain ⟨c, c1, c2⟩ := hdots.seq w (by intro h; rw [h] at hw; simp at hw; omega)
  refine ⟨expand rnd a b c, ?_, hR win hwin a b c a2 b2 c2⟩
  simp only [Function.comp_apply, a1, b1, c1, mul, Fl.mul_fin, fl, sub, Fl.sub_fin, add, Fl.add_fin, expand]
  unfold Fl.ltF
  simp only [Fl.fin_lt_fin, ne_eq, reduceCtorEq, not_false_eq_true, decide_true, Bool.and_true, decide_eq_true_eq]
  split <;> rfl

/-- What relates calculated values to windows: `R` after a full calculation, `P n` after at most `n` steps from a column to the next. -/
structure Steps (rnd : K → K) (R : K → List K → List K → Prop) (P : Nat → K → List K → List K → Prop) (m : Nat) (s q : List K) : Prop where
  row : ∀ win, win.length = m → (∀ x ∈ win, x ∈ s) → ∀ a b c, DotEval rnd (win.zip win) a → DotEval rnd (win.zip (q.take m)) b →
    DotEval rnd ((q.take m).zip (q.take m)) c → R (expand rnd a b c) win (q.take m)
  col : ∀ j, j + m ≤ s.length → ∀ win ∈ windows m q, ∀ a b c, DotEval rnd (win.zip win) a → DotEval rnd (win.zip ((s.drop j).take m)) b →
    DotEval rnd (((s.drop j).take m).zip ((s.drop j).take m)) c → R (expand rnd a b c) win ((s.drop j).take m)
  start : ∀ n j i v, j + m ≤ s.length → i + m ≤ q.length → R v ((q.drop i).take m) ((s.drop j).take m) →
    P n v ((s.drop j).take m) ((q.drop i).take m)
  start0 : ∀ n j v, j + m ≤ s.length → R v ((s.drop j).take m) (q.take m) → P n v ((s.drop j).take m) (q.take m)
  step : ∀ n j i v, j + 1 + m ≤ s.length → i + 1 + m ≤ q.length → P n v ((s.drop j).take m) ((q.drop i).take m) →
    P (n + 1) (rnd (rnd (v - diff2 rnd (seqOf s j) (seqOf q i)) + diff2 rnd (seqOf s (j + m)) (seqOf q (i + m))))
      ((s.drop (j + 1)).take m) ((q.drop (i + 1)).take m)

variable {R : K → List K → List K → Prop} {P : Nat → K → List K → List K → Prop}

theorem calcColumn_ok (hmem : ∀ n, (mem n).length = n) (hdots : dots.Ok rnd) (g : ColCache K) (m N : Nat) (M : Option Nat) (st : GSt K) (c : Nat) (f f' : Nat → Nat)
    (hf : ∀ i, f' (i + 1) = f i + 1) (hd : g.Data m N M st.s st.q) (hc : Cache R (fun i => P (f i)) g m N st.s st.q st.last) (hv : st.Valid m M (.column c)) (hsafe : st.Safe (.column c))
    (hst : Steps rnd R P m st.s st.q) :
    ∃ g' vs, calcColumn rnd dots mem sq g c = .ok (g', vs) ∧ g'.Data m N M st.s st.q ∧
      Cache R (fun i => P (f' i)) g' m N st.s st.q (some ((c : Int), true)) ∧ vs.length = st.q.length + 1 - m ∧
      ∀ i, i + m ≤ st.q.length → ∃ v, vs[i]? = some (fl rnd (Fl.sqrtF sq (.fin v))) ∧
        P (f' i) v ((st.s.drop c).take m) ((st.q.drop i).take m) := by
  obtain ⟨v1, v2⟩ := hv
  have hm := hd.m_pos
  have hql : (st.q.take m).length = m := by rw [List.length_take]; omega
  have hsl : ((st.s.drop c).take m).length = m := by rw [List.length_take, List.length_drop]; omega
  obtain ⟨g', vs, h1, h2, h3, -, h4, h5⟩ := column_ok (rnd := rnd) (full := sqDist rnd dots) (term := term rnd) (mem := mem) (R := R) (P := fun i => P (f i))
    (P' := fun i => P (f' i)) g m N M st.s st.q st.last c (diff2 rnd) hmem term_fin hd hc v1 v2 hsafe
    (fun k hk => sqDist_rel hdots m hm R _ _ hql (by rw [lastN_length]; omega) fun win hwin =>
      hst.row win (mem_windows_length hwin) fun x hx => by
        obtain ⟨i, -, rfl⟩ := List.mem_map.1 hwin
        exact List.mem_of_mem_drop (List.mem_of_mem_drop (List.mem_of_mem_take hx)))
    (sqDist_rel hdots m hm R _ _ hsl v2 fun win hwin => hst.col c v1 win hwin)
    (fun i v hi => hst.start (f' i) c i v v1 hi)
    (fun v => hst.start0 (f' 0) c v v1)
    (fun i c' v hcc hi hp => by subst hcc; simp only [hf]; exact hst.step (f i) c' i v v1 hi hp)
  refine ⟨g', vs.map fun v => fl rnd (Fl.sqrtF sq v), ?_, h2, h3, by rw [List.length_map, h4], ?_⟩
  · unfold calcColumn; rw [h1]; rfl
  · intro i hi
    obtain ⟨v, a, b⟩ := h5 i hi
    exact ⟨v, by rw [List.getElem?_map, a]; rfl, b⟩

/-- Number of column requests. -/
def columns : List (GOp K) → Nat
  | [] => 0
  | .column _ :: ops => columns ops + 1
  | _ :: ops => columns ops

/-- Calls covered: valid, safe, and for columns the windows meet `Steps`. -/
def Ok (rnd : K → K) (R : K → List K → List K → Prop) (P : Nat → K → List K → List K → Prop) (m : Nat) (M : Option Nat) (st : GSt K)
    (op : GOp K) : Prop :=
  st.Valid m M op ∧ st.Safe op ∧ ∀ c, op = .column c → Steps rnd R P m st.s st.q

theorem run_cache (hidem : ∀ x, rnd (rnd x) = rnd x) (hmem : ∀ n, (mem n).length = n) (hdots : dots.Ok rnd) (g : ColCache K) (m N : Nat)
    (M : Option Nat) (st : GSt K) (ops : List (GOp K)) (n : Nat) (hd : g.Data m N M st.s st.q) (hc : Cache R (fun i => P (min n i)) g m N st.s st.q st.last)
    (hok : st.All N M (Ok rnd R P m M) ops) :
    ∃ g', run rnd dots mem sq g ops = .ok g' ∧ g'.Data m N M (st.run N M ops).s (st.run N M ops).q ∧
      Cache R (fun i => P (min (n + columns ops) i)) g' m N (st.run N M ops).s (st.run N M ops).q (st.run N M ops).last := by
  induction ops generalizing g st n with
  | nil => exact ⟨g, rfl, hd, hc⟩
  | cons op ops ih =>
    obtain ⟨⟨hv, hsafe, hst⟩, hrest⟩ := hok
    have key : ∃ g1, exec rnd dots mem sq g op = .ok g1 ∧
        Cache R (fun i => P (min (n + columns [op]) i)) g1 m N (st.step N M op).s (st.step N M op).q (st.step N M op).last := by
      cases op with
      | series v =>
        by_cases hv : v.length = 0
        · refine ⟨g, by simp [exec, Eucl.appendSeries, hv], by simpa [GSt.step, hv, columns] using hc⟩
        · obtain ⟨rb, h1, -, -⟩ := g.pushSeries_data m N M st.s st.q v hd
          refine ⟨_, ?_, finishSeries_cache g m N M st v hd hc hv rb⟩
          simp only [exec, Eucl.appendSeries, List.length_map, if_neg hv, h1, bind, Except.bind, pure, Except.pure]
      | query v =>
        cases M with
        | none => exact absurd rfl hv
        | some M =>
          obtain ⟨rq, h1, -⟩ := hd.query
          by_cases hv : v.length = 0
          · refine ⟨g, by simp [exec, Eucl.appendQuery, h1, hv], by simpa [GSt.step, hv, columns] using hc⟩
          · obtain ⟨rq', g2, a, b, e⟩ := pushQuery_cache g m N M st v hd hv hc
            rw [h1] at a; cases a
            refine ⟨g2, by simp [exec, Eucl.appendQuery, h1, hv, b], ?_⟩
            simpa [GSt.step, hv, columns] using e
      | column c =>
        obtain ⟨g', vs, h1, -, h3, -⟩ := calcColumn_ok (sq := sq) hmem hdots g m N M st c _ (min (n + 1) ·) (fun i => by simp) hd hc hv hsafe (hst c rfl)
        exact ⟨g', by simp [exec, h1, Except.map], by simpa [columns, GSt.step] using h3⟩
      | diag d =>
        obtain ⟨k, -, -, -, h⟩ := calcDiagonal_values (rnd := rnd) (sq := sq) hidem g m N M st d hd hv
        refine ⟨g, ?_, by simpa [columns, GSt.step] using hc⟩
        rw [exec, h]; rfl
    obtain ⟨g1, h1, h2⟩ := key
    obtain ⟨g2, h3, h4, h5⟩ := ih g1 (st.step N M op) (n + columns [op]) (exec_data g g1 m N M st op hd h1) h2 hrest
    refine ⟨g2, by simp only [run, h1, bind, Except.bind]; exact h3, h4, ?_⟩
    have : n + columns [op] + columns ops = n + columns (op :: ops) := by cases op <;> simp [columns] <;> omega
    rw [this] at h5
    exact h5

/-- A column request after any covered calls. -/
theorem column_after (hidem : ∀ x, rnd (rnd x) = rnd x) (hmem : ∀ n, (mem n).length = n) (hdots : dots.Ok rnd) (m N : Nat) (M : Option Nat)
    (g0 : ColCache K) (st0 : GSt K) (hm : 0 < m) (h0 : Eucl.Fresh mem m g0 N M st0) (ops : List (GOp K)) (c : Nat)
    (hok : st0.All N M (Ok rnd R P m M) (ops ++ [.column c])) :
    ∃ g g' vs, run rnd dots mem sq g0 ops = .ok g ∧ calcColumn rnd dots mem sq g c = .ok (g', vs) ∧
      vs.length = (st0.run N M ops).q.length + 1 - m ∧
      ∀ i, i + m ≤ (st0.run N M ops).q.length → ∃ v, vs[i]? = some (fl rnd (Fl.sqrtF sq (.fin v))) ∧
        P (min (columns ops + 1) i) v (((st0.run N M ops).s.drop c).take m) (((st0.run N M ops).q.drop i).take m) := by
  obtain ⟨ha, hb⟩ := GSt.All.split hok
  obtain ⟨hd, f1, f2, f3⟩ := h0.data hmem hm
  have hc : Cache R (fun i => P (min 0 i)) g0 m N st0.s st0.q st0.last := by
    rw [f3]
    exact ⟨fun fr hfr => (by rw [f1] at hfr; cases hfr), f2⟩
  obtain ⟨g, h1, h2, h3⟩ := run_cache (sq := sq) hidem hmem hdots g0 m N M st0 ops 0 hd hc ha
  rw [Nat.zero_add] at h3
  obtain ⟨g', vs, h4, -, -, h5, h6⟩ := calcColumn_ok (sq := sq) hmem hdots g m N M _ c _ (min (columns ops + 1) ·) (fun i => by simp) h2 h3 hb.1.1 hb.1.2.1 (hb.1.2.2 c rfl)
  exact ⟨g, g', vs, h1, h4, h5, h6⟩

/-- Adding from the left is one of the orders. -/
theorem left_ok (rnd : K → K) : (Dots.left rnd).Ok rnd := by
  have aux : ∀ (w x : List K) (done : List (K × K)) (a : K), w.length = x.length → DotEval rnd done a →
      ∃ v, ((List.zipWith (mul rnd) (w.map .fin) (x.map .fin)).foldl (add rnd) (.fin a)) = .fin v ∧ DotEval rnd (done ++ w.zip x) v := by
    intro w
    induction w with
    | nil => intro x done a h hd; exact ⟨a, by simp, by simpa using hd⟩
    | cons y w ih =>
      intro x done a h hd
      cases x with
      | nil => simp at h
      | cons z x =>
        obtain ⟨v, h1, h2⟩ := ih x (done ++ [(y, z)]) (rnd (a + rnd (y * z))) (by simpa using h)
          (DotEval.add hd (DotEval.mul y z) (List.Perm.refl _))
        refine ⟨v, ?_, by simpa using h2⟩
        simpa [mul, add, fl] using h1
  have main : ∀ w x : List K, w ≠ [] → w.length = x.length → ∃ v, (Dots.left rnd).rows (w.map .fin) (x.map .fin) = .fin v ∧ DotEval rnd (w.zip x) v := by
    intro w x hw h
    cases w with
    | nil => exact absurd rfl hw
    | cons y w =>
      cases x with
      | nil => simp at h
      | cons z x =>
        obtain ⟨v, h1, h2⟩ := aux w x [(y, z)] (rnd (y * z)) (by simpa using h) (DotEval.mul y z)
        exact ⟨v, by simpa [Dots.left, mul, fl] using h1, by simpa using h2⟩
  exact ⟨fun w hw => main w w hw rfl, main, fun w hw => main w w hw rfl⟩

end Rounded
end Verif
