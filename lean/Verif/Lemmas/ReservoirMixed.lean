import Verif.Props.Reservoir

/-!
# `MatrixProfileLRReservoir` that receives diagonals and columns
-/

namespace Verif
open Spec
variable {K : Type} [LinearOrder K]

/-- The index of one position of one side is drawn from `rows`; `v` is its value and `n` its number of matches. -/
structure Ties (K : Type) where
  v : Fl K
  rows : List Int
  n : Nat

namespace Ties

/-- Nothing delivered. -/
def init : Ties K := ⟨.pinf, [-1], 0⟩

/-- One more value. -/
def add (T : Ties K) (x : Fl K × Int) : Ties K :=
  if Fl.ltF x.1 T.v then ⟨x.1, [x.2], 1⟩
  else if Fl.eqF x.1 T.v && x.1.isFinite then ⟨T.v, T.rows ++ [x.2], T.n + 1⟩
  else T

/-- A column in which `sel` was delivered. -/
def ofColumn (sel : List (Fl K × Int)) : Ties K :=
  ⟨(best sel).1, (sel.filter fun x => decide (x.1 = (best sel).1)).map Prod.snd, (sel.filter fun x => decide (x.1 = (best sel).1)).length⟩

/-- One more call. -/
def step (c : Nat) (left : Bool) (T : Ties K) (d : Delivery K) : Ties K :=
  match d with
  | .column c' vals =>
    if c' = c ∧ entriesFor ((Delivery.column c' vals).cells 0 0) c left ≠ [] then ofColumn (entriesFor ((Delivery.column c' vals).cells 0 0) c left) else T
  | d => (entriesFor (d.cells 0 0) c left).foldl add T

/-- There is a candidate, and a finite value has as many candidates as matches. -/
structure Ok (T : Ties K) : Prop where
  rows : T.rows ≠ []
  num : ∀ y, T.v = .fin y → T.n = T.rows.length

/-- A possible outcome. -/
def Out (T : Ties K) (e : REntry K) : Prop := e.mp = T.v ∧ e.num = T.n ∧ e.idx ∈ T.rows

/-- Expectation when the index is drawn uniformly. -/
def mean (T : Ties K) (F : REntry K → ℚ) : ℚ := (T.rows.map fun i => F ⟨T.v, i, T.n⟩).sum / T.rows.length

theorem Ok.init : (init : Ties K).Ok := ⟨by simp [Ties.init], fun y h => by cases h⟩

theorem Ok.add {T : Ties K} (h : T.Ok) (x : Fl K × Int) : (T.add x).Ok := by
  unfold Ties.add
  split
  · exact ⟨by simp, fun _ _ => rfl⟩
  · split
    · exact ⟨by simp, fun y hy => by simp [h.num y hy]⟩
    · exact h

theorem step_out {T : Ties K} {e : REntry K} (h : T.Out e) (x : Fl K × Int) : (e.step x).All (T.add x).Out := by
  obtain ⟨h1, h2, h3⟩ := h
  unfold REntry.step Ties.add
  rw [h1]
  split
  · exact ⟨rfl, rfl, by simp⟩
  · split
    · have hp : (0 : ℚ) < ((e.num + 1 : Nat) : ℚ) := by positivity
      refine ⟨⟨by positivity, ?_⟩, ⟨rfl, by rw [h2], by simp⟩, ⟨rfl, by rw [h2], by simp [h3]⟩⟩
      rw [div_le_one hp]
      push_cast
      linarith [(Nat.cast_nonneg e.num : (0 : ℚ) ≤ _)]
    · exact ⟨h1, h2, h3⟩

theorem step_mean {T : Ties K} (h : T.Ok) (x : Fl K × Int) (F : REntry K → ℚ) : T.mean (fun e => (e.step x).E F) = (T.add x).mean F := by
  have hpos : (0 : ℚ) < T.rows.length := by exact_mod_cast List.length_pos_iff.mpr h.rows
  unfold mean REntry.step Ties.add
  simp only
  by_cases hlt : Fl.ltF x.1 T.v = true
  · simp only [if_pos hlt, Rnd.E, List.map_const', List.sum_replicate, nsmul_eq_mul, List.map_cons, List.map_nil, List.sum_cons, List.sum_nil,
      List.length_singleton]
    field_simp
    simp
  · rw [Bool.not_eq_true] at hlt
    by_cases heq : (Fl.eqF x.1 T.v && x.1.isFinite) = true
    · have d : T.n = T.rows.length := by
        rw [Bool.and_eq_true, Fl.eqF_iff, Fl.isFinite_iff] at heq
        obtain ⟨⟨h3, -⟩, y, h4⟩ := heq
        exact h.num y (by rw [← h3, h4])
      simp only [hlt, Bool.false_eq_true, if_false, if_pos heq, Rnd.E, if_true, List.map_append, List.sum_append, List.map_cons, List.map_nil,
        List.sum_cons, List.sum_nil, List.length_append, List.length_singleton]
      have hsum : ∀ (l : List Int) (A B : ℚ) (G : Int → ℚ), (l.map fun i => A + B * G i).sum = l.length * A + B * (l.map G).sum := by
        intro l A B G
        induction l with
        | nil => simp
        | cons y ys ihy => simp only [List.map_cons, List.sum_cons, ihy, List.length_cons]; push_cast; ring
      rw [hsum, d]
      set S := (List.map (fun i => F ⟨T.v, i, T.rows.length + 1⟩) T.rows).sum
      set n : ℚ := (T.rows.length : ℚ)
      have : n + 1 ≠ 0 := by positivity
      push_cast
      field_simp
      ring
    · rw [Bool.not_eq_true] at heq
      simp only [hlt, heq, Bool.false_eq_true, if_false, Rnd.E]

theorem run_out {T : Ties K} {e : REntry K} (h : T.Out e) (l : List (Fl K × Int)) : (e.run l).All (l.foldl add T).Out := by
  induction l generalizing T e with
  | nil => exact h
  | cons x xs ih => exact (step_out h x).bind fun e' he' => ih he'

theorem run_mean {T : Ties K} (h : T.Ok) (l : List (Fl K × Int)) (F : REntry K → ℚ) : T.mean (fun e => (e.run l).E F) = (l.foldl add T).mean F := by
  induction l generalizing T with
  | nil => rfl
  | cons x xs ih =>
    simp only [REntry.run, Rnd.E_bind]
    rw [step_mean h x, ih (h.add x)]
    rfl

theorem Ok.foldl {T : Ties K} (h : T.Ok) (l : List (Fl K × Int)) : (l.foldl Ties.add T).Ok := by
  induction l generalizing T with
  | nil => exact h
  | cons x xs ih => exact ih (h.add x)

end Ties

theorem REntry.step_sure (e : REntry K) (x : Fl K × Int) : (e.step x).All fun _ => True :=
  (Ties.step_out (T := ⟨e.mp, [e.idx], e.num⟩) ⟨rfl, rfl, by simp⟩ x).mono fun _ _ => trivial

namespace Reservoir

/-- A call made on the model; there is no `shift_series` and no `shift_query`. -/
def deliver (p : Reservoir K) : Delivery K → Rnd (Reservoir K)
  | .diag d vals => p.processDiagonal d [vals]
  | .column c vals => p.processColumn c [vals]
  | _ => .fail .attributeError

/-- Calls that are no shifts, and columns without NaN. -/
def _root_.Verif.Spec.Delivery.Plain : Delivery K → Prop
  | .diag _ _ => True
  | .column _ vals => .nan ∉ vals
  | _ => False

/-- One diagonal, one position: every outcome. -/
theorem diag_out {p : Reservoir K} {h w : Nat} (hp : p.Shape h w) (d : Int) (vals : List (Fl K)) (hv : (Delivery.diag d vals).Valid h w)
    (R : Bool → Nat → REntry K → Prop)
    (hR : ∀ left (c : Nat) e, (p.side left)[c]? = some e → (e.run (entriesFor ((Delivery.diag d vals).cells 0 0) c left)).All (R left c)) :
    (p.processDiagonal d [vals]).All fun p' => p'.Shape h w ∧ ∀ left (c : Nat) e, (p'.side left)[c]? = some e → R left c e := by
  obtain ⟨hv1, hv2⟩ := hv
  obtain ⟨hi, hrow⟩ := diagRows_ok p.range (max h w) 0 hp.range d vals.length (by omega)
  have hent : ∀ (c : Nat) (left : Bool), entriesFor ((Delivery.diag d vals).cells 0 0) c left =
      if d.toNat ≤ c ∧ decide (0 ≤ d) = left then
        (vals[c - d.toNat]?.map fun v => (v, (((-d).toNat + (c - d.toNat) : Nat) : Int))).toList else [] := by
    intro c left
    simpa using entriesFor_diag d vals 0 0 c left
  rw [processDiagonal_eq]
  refine (update_all vals _ (p.side (decide (0 ≤ d))) d.toNat ⟨hi, by rw [hp.side]; omega⟩
    (fun c e => R (decide (0 ≤ d)) c e) ?_ ?_).bind fun s hsd => ?_
  · intro k v i e h1 h2 h3
    have := hR _ _ e h3
    rw [hent, if_pos ⟨by omega, rfl⟩] at this
    simp only [Nat.add_sub_cancel_left, h1, Option.map_some, Option.toList_some, REntry.run, Rnd.bind_pure] at this
    rw [hrow k i h2]
    exact this
  · intro c e h1 hc
    have h2 := hR _ c e h1
    rw [hent] at h2
    have : (if d.toNat ≤ c ∧ decide (0 ≤ d) = decide (0 ≤ d) then
        (vals[c - d.toNat]?.map fun v => (v, (((-d).toNat + (c - d.toNat) : Nat) : Int))).toList else []) = [] := by
      split
      · have : vals[c - d.toNat]? = none := by simp; omega
        simp [this]
      · rfl
    rw [this] at h2
    exact h2
  · have hother : ∀ left, left ≠ decide (0 ≤ d) → ∀ (c : Nat) e, (p.side left)[c]? = some e → R left c e := by
      intro left hl c e h1
      have := hR left c e h1
      rw [hent, if_neg (fun h => hl h.2.symm)] at this
      exact this
    by_cases hd : 0 ≤ d
    · simp only [hd, if_true, decide_true] at hsd hother ⊢
      refine ⟨⟨hp.range, by rw [hsd.1]; exact hp.left, hp.right⟩, fun left c e h1 => ?_⟩
      cases left
      · exact hother false (by simp) c e h1
      · exact hsd.2 c e h1
    · simp only [hd, if_false, decide_false] at hsd hother ⊢
      refine ⟨⟨hp.range, hp.left, by rw [hsd.1]; exact hp.right⟩, fun left c e h1 => ?_⟩
      cases left
      · exact hsd.2 c e h1
      · exact hother true (by simp) c e h1

/-- One diagonal, one position: expectation. -/
theorem diag_E {p : Reservoir K} {h w : Nat} (hp : p.Shape h w) (k : Int) (vals : List (Fl K)) (hv : (Delivery.diag k vals).Valid h w)
    (left : Bool) (c : Nat) (e : REntry K) (he : (p.side left)[c]? = some e) (G : Option (REntry K) → ℚ) :
    ((p.processDiagonal k [vals]).E fun p' => G (p'.side left)[c]?) = (e.run (entriesFor ((Delivery.diag k vals).cells 0 0) c left)).E fun e' => G (some e') := by
  obtain ⟨hv1, hv2⟩ := hv
  obtain ⟨hi, hrow⟩ := diagRows_ok p.range (max h w) 0 hp.range k vals.length (by omega)
  have hent : entriesFor ((Delivery.diag k vals).cells 0 0) c left =
      if k.toNat ≤ c ∧ decide (0 ≤ k) = left then
        (vals[c - k.toNat]?.map fun v => (v, (((-k).toNat + (c - k.toNat) : Nat) : Int))).toList else [] := by
    simpa using entriesFor_diag k vals 0 0 c left
  have hsure : ∀ e ∈ p.side (decide (0 ≤ k)), ∀ x, (e.step x).All fun _ => True := fun e _ x => e.step_sure x
  rw [processDiagonal_eq, Rnd.E_bind]
  by_cases hl : decide (0 ≤ k) = left
  · have hside : ∀ s, (Rnd.pure (if 0 ≤ k then { p with left := s } else { p with right := s }) : Rnd (Reservoir K)).E (fun p' => G (p'.side left)[c]?) =
        G s[c]? := by
      intro s
      simp only [Rnd.E]
      by_cases hk : 0 ≤ k
      · rw [if_pos hk, ← hl]; simp [side, hk]
      · rw [if_neg hk, ← hl]; simp [side, hk]
    simp only [hside]
    rw [update_E vals _ _ k.toNat ⟨hi, by rw [hp.side]; omega⟩ hsure c G, hl, he, hent]
    by_cases hkc : k.toNat ≤ c
    · simp only [hkc, if_true, hl, and_self]
      cases hvc : vals[c - k.toNat]? with
      | none => rfl
      | some v =>
        have hlt := (List.getElem?_eq_some_iff.mp hvc).1
        obtain ⟨i, hi'⟩ : ∃ i, (diagRows p.range k vals.length)[c - k.toNat]? = some i :=
          ⟨(diagRows p.range k vals.length)[c - k.toNat]'(by omega), by simp [hi, hlt]⟩
        rw [hi']
        simp only [Option.map_some, Option.toList_some, REntry.run, Rnd.bind_pure]
        have := hrow _ i hi'
        simp only [Nat.add_zero] at this
        rw [this]
    · simp only [hkc, if_false, false_and]
      rfl
  · have hside : ∀ s, (Rnd.pure (if 0 ≤ k then { p with left := s } else { p with right := s }) : Rnd (Reservoir K)).E (fun p' => G (p'.side left)[c]?) =
        G (some e) := by
      intro s
      simp only [Rnd.E]
      rw [← he]
      by_cases hk : 0 ≤ k
      · cases left
        · rw [if_pos hk]; rfl
        · exact absurd (by simpa using hk) hl
      · cases left
        · exact absurd (by simpa using hk) hl
        · rw [if_neg hk]; rfl
    simp only [hside]
    rw [hent, if_neg (fun h => hl h.2)]
    have := update_all vals (diagRows p.range k vals.length) (p.side (decide (0 ≤ k))) k.toNat ⟨hi, by rw [hp.side]; omega⟩ (fun _ _ => True)
      (fun k v i e h1 h2 h3 => hsure e (List.mem_of_getElem? h3) _) (fun _ _ _ _ => trivial)
    rw [this.E_const]
    rfl

/-- The draw of one side of a column: possible outcomes and expectations. -/
theorem columnEntry_law (part : List (Fl K)) (hne : part ≠ []) (hn : Fl.nan ∉ part) (off : Nat) (sel : List (Fl K × Int))
    (hsel : sel = part.zipIdx.map fun x : Fl K × Nat => (x.1, ((x.2 + off : Nat) : Int))) :
    (columnEntry part off).All (Ties.ofColumn sel).Out ∧ (∀ F, (columnEntry part off).E F = (Ties.ofColumn sel).mean F) ∧ (Ties.ofColumn sel).Ok := by
  obtain ⟨m, hm, hmem, hnan, hle⟩ := npMin_spec part hne
  have hmn : m ≠ .nan := fun h => hn (hnan.mp h)
  have hb := best_isBest sel
  have hselmem : ∀ x i, (x, i) ∈ sel → x ∈ part := by
    intro x i hx
    rw [hsel] at hx
    obtain ⟨⟨y, j⟩, h1, h2⟩ := List.mem_map.mp hx
    rw [List.mem_zipIdx_iff_getElem?] at h1
    cases h2
    exact List.mem_of_getElem? h1
  obtain ⟨j0, hj0⟩ := List.mem_iff_getElem?.mp hmem
  have hmsel : (m, ((j0 + off : Nat) : Int)) ∈ sel := by
    rw [hsel]
    exact List.mem_map.mpr ⟨(m, j0), by rw [List.mem_zipIdx_iff_getElem?]; exact hj0, rfl⟩
  have hbm : (best sel).1 = m := by
    apply le_antisymm
    · exact (hb.lower _ hmsel).resolve_left hmn
    · rcases hb.attained with ⟨e, -⟩ | ⟨-, pre, post, e, -⟩
      · rw [e]; exact (Fl.le_pinf_iff _).mpr hmn
      · exact hle hn _ (hselmem _ _ (best_mem e))
  set P := positions part m with hP
  have hrows : (sel.filter fun x => decide (x.1 = (best sel).1)).map Prod.snd = P.map fun i => i + (off : Int) := by
    rw [hbm, hsel, List.filter_map, List.map_map, hP, positions, List.map_map]
    have : ((fun x : Fl K × Int => decide (x.1 = m)) ∘ fun x : Fl K × Nat => (x.1, ((x.2 + off : Nat) : Int))) = fun y : Fl K × Nat => Fl.eqF y.1 m := by
      funext y
      simp only [Function.comp_apply]
      by_cases hy : y.1 = m
      · rw [(Fl.eqF_iff _ _).mpr ⟨hy, hy ▸ hmn⟩]; simp [hy]
      · have : Fl.eqF y.1 m = false := by rw [← Bool.not_eq_true, Fl.eqF_iff]; tauto
        rw [this]; simp [hy]
    rw [this]
    apply List.map_congr_left
    intro y _
    simp
  have hlen : (sel.filter fun x => decide (x.1 = (best sel).1)).length = P.length := by
    have := congrArg List.length hrows
    simpa using this
  have hT : Ties.ofColumn sel = ⟨m, P.map fun i => i + (off : Int), P.length⟩ := by
    unfold Ties.ofColumn
    rw [hrows, hlen, hbm]
  have hPne : P ≠ [] := by
    intro h
    have h1 : P.map (fun i => i + (off : Int)) = [] := by rw [h]; rfl
    rw [← hrows, List.map_eq_nil_iff, List.filter_eq_nil_iff] at h1
    exact h1 _ hmsel (by simp [hbm])
  have hPpos := List.length_pos_iff.mpr hPne
  have hce : columnEntry part off = (randomPick P).bind fun i => .pure ⟨m, i + off, P.length⟩ := by
    simp only [columnEntry, hm, Rnd.lift, Rnd.pure_bind, hP]
  have hgetP : ∀ k < P.length, ∃ x, pyGet P (k : Int) = .ok x ∧ P[k]? = some x := by
    intro k hk
    have : P[k]? = some P[k] := by simp [hk]
    exact ⟨P[k], (pyGet_nat_ok _ _ _).mpr this, this⟩
  have hpickAll : (randomPick P).All fun i => i ∈ P := by
    unfold randomPick
    split
    · obtain ⟨x, hx, hx'⟩ := hgetP 0 hPpos
      have hx0 : pyGet P 0 = .ok x := hx
      rw [hx0]
      exact List.mem_of_getElem? hx'
    · rw [if_neg (by omega)]
      refine ⟨hPpos, fun k hk => ?_⟩
      obtain ⟨x, hx, hx'⟩ := hgetP k hk
      show (Rnd.lift (pyGet P (k : Int))).All _
      rw [hx]
      exact List.mem_of_getElem? hx'
  have hpickE : ∀ F : Int → ℚ, (randomPick P).E F = (P.map F).sum / P.length := by
    intro F
    unfold randomPick
    split
    · rename_i h1
      obtain ⟨a, ha⟩ := List.length_eq_one_iff.mp h1
      rw [ha]
      simp [Rnd.lift, pyGet, Rnd.E]
    · rw [if_neg (by omega)]
      simp only [Rnd.E]
      congr 2
      apply List.ext_getElem?
      intro k
      rcases Nat.lt_or_ge k P.length with hk | hk
      · obtain ⟨x, hx, hx'⟩ := hgetP k hk
        rw [List.getElem?_map, List.getElem?_range hk, List.getElem?_map, hx']
        simp [hx, Rnd.lift, Rnd.E]
      · simp [hk]
  rw [hce, hT]
  refine ⟨hpickAll.bind fun i hi => ⟨rfl, rfl, List.mem_map_of_mem hi⟩, fun F => ?_, ⟨by simpa using hPne, fun _ _ => by simp⟩⟩
  rw [Rnd.E_bind]
  simp only [Rnd.E]
  rw [hpickE]
  simp [Ties.mean, List.map_map, Function.comp_def]

/-- `process_column` as one draw per side. -/
theorem processColumn_eq {p : Reservoir K} {h w : Nat} (hp : p.Shape h w) (c : Nat) (hc : c < w) (vals : List (Fl K)) :
    p.processColumn c [vals] = (columnEntry (vals.take (c + 1)) (0 : Nat)).bind fun e =>
      if c + 2 ≤ vals.length then (columnEntry (vals.drop (c + 1)) ((c + 1 : Nat) : Int)).bind fun e' =>
        .pure { p with left := p.left.set c e, right := p.right.set c e' }
      else .pure { p with left := p.left.set c e } := by
  unfold processColumn
  have hget : pyGet [vals] 0 = .ok vals := rfl
  have h1 : pyTo vals ((c : Int) + 1) = vals.take (c + 1) := by
    have := pyTo_nat vals (c + 1)
    simpa using this
  have h2 : pyFrom vals ((c : Int) + 1) = vals.drop (c + 1) := by
    have := pyFrom_nat vals (c + 1)
    simpa using this
  simp only [hget, Rnd.lift, Rnd.pure_bind, h1, h2]
  congr 1
  funext e
  rw [show pySet p.left (c : Int) e = .ok (p.left.set c e) from (pySet_nat_ok _ _ c e).mpr ⟨by rw [hp.left]; exact hc, rfl⟩]
  simp only [Rnd.pure_bind]
  by_cases h3 : c + 2 ≤ vals.length
  · rw [if_pos (by omega), if_pos h3]
    congr 1
    funext e'
    rw [show pySet p.right (c : Int) e' = .ok (p.right.set c e') from (pySet_nat_ok _ _ c e').mpr ⟨by rw [hp.right]; exact hc, rfl⟩]
    rfl
  · rw [if_neg (by omega), if_neg h3]

/-- What is known about a profile whose randomness is not resolved yet: the sizes, every outcome, and the expectations of each position. -/
structure Law (t : Rnd (Reservoir K)) (h w : Nat) (T : Bool → Nat → Ties K) : Prop where
  all : t.All fun p => p.Shape h w ∧ ∀ left (c : Nat) e, (p.side left)[c]? = some e → (T left c).Out e
  mean : ∀ left, ∀ c < w, ∀ F : Option (REntry K) → ℚ, (t.E fun p => F (p.side left)[c]?) = (T left c).mean fun e => F (some e)
  ok : ∀ left c, (T left c).Ok

theorem Law.init (h w : Nat) : ∃ p : Reservoir K, initialise (h : Int) (w : Int) = .ok p ∧ Law (.pure p) h w fun _ _ => Ties.init := by
  obtain ⟨p, h1, h2, h3⟩ := initialise_shape (K := K) h w
  refine ⟨p, h1, ⟨⟨h2, fun left c e he => ?_⟩, fun left c hc F => ?_, fun _ _ => Ties.Ok.init⟩⟩
  · have hc : c < w := by
      have := (List.getElem?_eq_some_iff.mp he).1
      rwa [h2.side] at this
    rw [h3 left c hc] at he
    cases he
    exact ⟨rfl, rfl, by simp [Ties.init]⟩
  · show F (p.side left)[c]? = _
    rw [h3 left c hc]
    simp [Ties.mean, Ties.init]

theorem Law.get {t : Rnd (Reservoir K)} {h w : Nat} {T : Bool → Nat → Ties K} (hl : Law t h w T) (left : Bool) (c : Nat) (hc : c < w) :
    t.All fun p => ∃ e, (p.side left)[c]? = some e := hl.all.mono fun p hp =>
  ⟨(p.side left)[c]'(by rw [hp.1.side]; exact hc), by simp [hp.1.side, hc]⟩

/-- One more call. -/
theorem Law.deliver {t : Rnd (Reservoir K)} {h w : Nat} {T : Bool → Nat → Ties K} (hl : Law t h w T) (d : Delivery K) (hv : d.Valid h w) (hpl : d.Plain) :
    Law (t.bind fun p => p.deliver d) h w fun left c => (T left c).step c left d := by
  cases d with
  | shiftSeries n => exact hpl.elim
  | shiftQuery n => exact hpl.elim
  | diag d vals =>
    refine ⟨hl.all.bind fun p hp => ?_, fun left c hc F => ?_, fun left c => (hl.ok left c).foldl _⟩
    · exact diag_out hp.1 d vals hv (fun left c e => ((T left c).step c left (.diag d vals)).Out e) fun left c e he => Ties.run_out (hp.2 left c e he) _
    · rw [Rnd.E_bind]
      set G : Option (REntry K) → ℚ := fun o => match o with
        | some e => (e.run (entriesFor ((Delivery.diag d vals).cells 0 0) c left)).E fun e' => F (some e')
        | none => 0 with hG
      have h1 : (t.E fun p => (p.deliver (.diag d vals)).E fun p' => F (p'.side left)[c]?) = t.E fun p => G (p.side left)[c]? := by
        refine (hl.all.and (hl.get left c hc)).E_congr fun p hp => ?_
        obtain ⟨⟨hs, -⟩, e, he⟩ := hp
        rw [he]
        exact diag_E hs d vals hv left c e he F
      rw [h1, hl.mean left c hc]
      exact Ties.run_mean (hl.ok left c) _ _
  | column c0 vals =>
    obtain ⟨hc0, hne, hlen⟩ := hv
    have hn : Fl.nan ∉ vals := hpl
    have eL : entriesFor ((Delivery.column c0 vals).cells 0 0) (c0 : Int) true = (vals.take (c0 + 1)).zipIdx.map fun x : Fl K × Nat => (x.1, ((x.2 + 0 : Nat) : Int)) := by
      simpa using entriesFor_column_left c0 vals 0 0
    have eR : entriesFor ((Delivery.column c0 vals).cells 0 0) (c0 : Int) false =
        (vals.drop (c0 + 1)).zipIdx.map fun x : Fl K × Nat => (x.1, ((x.2 + (c0 + 1) : Nat) : Int)) := by
      simpa using entriesFor_column_right c0 vals 0 0
    obtain ⟨l1, l2, l3⟩ := columnEntry_law (vals.take (c0 + 1)) (by simpa using hne) (fun h => hn (List.mem_of_mem_take h)) 0 _ eL
    have hLne : entriesFor ((Delivery.column c0 vals).cells 0 0) (c0 : Int) true ≠ [] := by rw [eL]; simpa using hne
    have sL : ∀ T : Ties K, T.step c0 true (.column c0 vals) = Ties.ofColumn (entriesFor ((Delivery.column c0 vals).cells 0 0) (c0 : Int) true) := fun T => by
      unfold Ties.step
      simp only
      rw [if_pos ⟨trivial, hLne⟩]
    have sN : ∀ (T : Ties K) c left, c ≠ c0 → T.step c left (.column c0 vals) = T := fun T c left h => by
      unfold Ties.step
      simp only
      rw [if_neg (fun h' => h h'.1.symm)]
    by_cases h2 : c0 + 2 ≤ vals.length
    · have hRne' : vals.drop (c0 + 1) ≠ [] := by
        rw [Ne, List.drop_eq_nil_iff]; omega
      have hRne : entriesFor ((Delivery.column c0 vals).cells 0 0) (c0 : Int) false ≠ [] := by rw [eR]; simpa using hRne'
      obtain ⟨r1, r2, r3⟩ := columnEntry_law (vals.drop (c0 + 1)) hRne' (fun h => hn (List.mem_of_mem_drop h)) (c0 + 1) _ eR
      have sR : ∀ T : Ties K, T.step c0 false (.column c0 vals) = Ties.ofColumn (entriesFor ((Delivery.column c0 vals).cells 0 0) (c0 : Int) false) := fun T => by
        unfold Ties.step
        simp only
        rw [if_pos ⟨trivial, hRne⟩]
      refine ⟨hl.all.bind fun p hp => ?_, fun left c hc F => ?_, fun left c => ?_⟩
      · show (p.processColumn c0 [vals]).All _
        rw [processColumn_eq hp.1 c0 hc0]
        refine l1.bind fun e he => ?_
        rw [if_pos h2]
        refine r1.bind fun e' he' => ?_
        refine ⟨⟨hp.1.range, by simpa using hp.1.left, by simpa using hp.1.right⟩, fun left c x hx => ?_⟩
        cases left with
        | true =>
          simp only [side, if_true, List.getElem?_set] at hx
          by_cases hcc : c0 = c
          · subst hcc
            rw [if_pos rfl, if_pos (by rw [hp.1.left]; exact hc0)] at hx
            cases hx
            rw [sL]; exact he
          · rw [if_neg hcc] at hx
            rw [sN _ _ _ (Ne.symm hcc)]
            exact hp.2 true c x hx
        | false =>
          simp only [side, Bool.false_eq_true, if_false, List.getElem?_set] at hx
          by_cases hcc : c0 = c
          · subst hcc
            rw [if_pos rfl, if_pos (by rw [hp.1.right]; exact hc0)] at hx
            cases hx
            rw [sR]; exact he'
          · rw [if_neg hcc] at hx
            rw [sN _ _ _ (Ne.symm hcc)]
            exact hp.2 false c x hx
      · rw [Rnd.E_bind]
        by_cases hcc : c = c0
        · subst hcc
          cases left with
          | true =>
            rw [sL, ← l2, ← hl.all.E_const ((columnEntry (vals.take (c + 1)) ((0 : Nat) : Int)).E _)]
            refine hl.all.E_congr fun p hp => ?_
            show (p.processColumn c [vals]).E _ = _
            rw [processColumn_eq hp.1 c hc0, Rnd.E_bind]
            congr 1
            funext e
            rw [if_pos h2, Rnd.E_bind]
            simp only [Rnd.E, side, if_true, List.getElem?_set_self (show c < p.left.length by rw [hp.1.left]; exact hc0)]
            exact r1.E_const _
          | false =>
            rw [sR, ← r2, ← hl.all.E_const ((columnEntry (vals.drop (c + 1)) ((c + 1 : Nat) : Int)).E _)]
            refine hl.all.E_congr fun p hp => ?_
            show (p.processColumn c [vals]).E _ = _
            rw [processColumn_eq hp.1 c hc0, Rnd.E_bind]
            refine Eq.trans ?_ (l1.E_const ((columnEntry (vals.drop (c + 1)) ((c + 1 : Nat) : Int)).E fun e => F (some e)))
            congr 1
            funext e
            rw [if_pos h2, Rnd.E_bind]
            simp only [Rnd.E, side, Bool.false_eq_true, if_false, List.getElem?_set_self (show c < p.right.length by rw [hp.1.right]; exact hc0)]
        · rw [sN _ _ _ hcc, ← hl.mean left c hc]
          refine hl.all.E_congr fun p hp => ?_
          show (p.processColumn c0 [vals]).E _ = _
          rw [processColumn_eq hp.1 c0 hc0, Rnd.E_bind]
          refine Eq.trans ?_ (l1.E_const (F (p.side left)[c]?))
          congr 1
          funext e
          rw [if_pos h2, Rnd.E_bind]
          refine Eq.trans ?_ (r1.E_const (F (p.side left)[c]?))
          congr 1
          funext e'
          cases left <;> simp [Rnd.E, side, List.getElem?_set_ne (Ne.symm hcc)]
      · by_cases hcc : c = c0
        · subst hcc
          cases left with
          | true => rw [sL]; exact l3
          | false => rw [sR]; exact r3
        · rw [sN _ _ _ hcc]; exact hl.ok left c
    · have hR : entriesFor ((Delivery.column c0 vals).cells 0 0) (c0 : Int) false = [] := by
        rw [eR, List.drop_eq_nil_of_le (by omega)]; rfl
      have sR : ∀ T : Ties K, T.step c0 false (.column c0 vals) = T := fun T => by
        unfold Ties.step
        simp only
        rw [if_neg (fun h => h.2 hR)]
      refine ⟨hl.all.bind fun p hp => ?_, fun left c hc F => ?_, fun left c => ?_⟩
      · show (p.processColumn c0 [vals]).All _
        rw [processColumn_eq hp.1 c0 hc0]
        refine l1.bind fun e he => ?_
        rw [if_neg h2]
        refine ⟨⟨hp.1.range, by simpa using hp.1.left, by simpa using hp.1.right⟩, fun left c x hx => ?_⟩
        cases left with
        | true =>
          simp only [side, if_true, List.getElem?_set] at hx
          by_cases hcc : c0 = c
          · subst hcc
            rw [if_pos rfl, if_pos (by rw [hp.1.left]; exact hc0)] at hx
            cases hx
            rw [sL]; exact he
          · rw [if_neg hcc] at hx
            rw [sN _ _ _ (Ne.symm hcc)]
            exact hp.2 true c x hx
        | false =>
          have := hp.2 false c x hx
          by_cases hcc : c = c0
          · subst hcc; rw [sR]; exact this
          · rw [sN _ _ _ hcc]; exact this
      · rw [Rnd.E_bind]
        by_cases hcc : c = c0 ∧ left = true
        · obtain ⟨rfl, rfl⟩ := hcc
          rw [sL, ← l2, ← hl.all.E_const ((columnEntry (vals.take (c + 1)) ((0 : Nat) : Int)).E _)]
          refine hl.all.E_congr fun p hp => ?_
          show (p.processColumn c [vals]).E _ = _
          rw [processColumn_eq hp.1 c hc0, Rnd.E_bind]
          congr 1
          funext e
          rw [if_neg h2]
          simp only [Rnd.E, side, if_true, List.getElem?_set_self (show c < p.left.length by rw [hp.1.left]; exact hc0)]
        · have hT : (T left c).step c left (.column c0 vals) = T left c := by
            by_cases h3 : c = c0
            · subst h3
              cases left with
              | true => exact absurd ⟨rfl, rfl⟩ hcc
              | false => exact sR _
            · exact sN _ _ _ h3
          rw [hT, ← hl.mean left c hc]
          refine hl.all.E_congr fun p hp => ?_
          show (p.processColumn c0 [vals]).E _ = _
          rw [processColumn_eq hp.1 c0 hc0, Rnd.E_bind]
          refine Eq.trans ?_ (l1.E_const (F (p.side left)[c]?))
          congr 1
          funext e
          rw [if_neg h2]
          cases left with
          | false => rfl
          | true =>
            have h3 : c0 ≠ c := fun h => hcc ⟨h.symm, rfl⟩
            simp [Rnd.E, side, List.getElem?_set_ne h3]
      · by_cases hcc : c = c0
        · subst hcc
          cases left with
          | true => rw [sL]; exact l3
          | false => rw [sR]; exact hl.ok _ _
        · rw [sN _ _ _ hcc]; exact hl.ok left c

/-- The calls of a history made on the model. -/
def runAll (p : Reservoir K) : List (Delivery K) → Rnd (Reservoir K)
  | [] => .pure p
  | d :: ds => (p.deliver d).bind fun p => p.runAll ds

theorem Law.runAll {t : Rnd (Reservoir K)} {h w : Nat} {T : Bool → Nat → Ties K} (hl : Law t h w T) (ds : List (Delivery K))
    (hv : ∀ d ∈ ds, d.Valid h w ∧ d.Plain) : Law (t.bind fun p => p.runAll ds) h w fun left c => ds.foldl (Ties.step c left) (T left c) := by
  induction ds generalizing t T with
  | nil =>
    have : (t.bind fun p => p.runAll []) = t := Rnd.bind_pure t
    rw [this]
    exact hl
  | cons d ds ih =>
    have := ih (hl.deliver d (hv d (by simp)).1 (hv d (by simp)).2) fun d hd => hv d (by simp [hd])
    rw [Rnd.bind_assoc] at this
    exact this

end Reservoir
end Verif
