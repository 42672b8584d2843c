import Verif.Lemmas.Filter
import Verif.Lemmas.Serves

/-!
# C35, C36, C37: the filter generator
-/

namespace Verif
open Spec

/-- **C35**: the mask has one entry per subsequence, and entry `i` is set exactly when one of the points `i, …, i+m-1` is invalid. -/
theorem C35_mask (inv : List Bool) (m : Nat) (hm : 0 < m) (h : m ≤ inv.length) :
    ∃ mask, Filter.invalidSubseq inv m = .ok mask ∧ mask.length = inv.length - m + 1 ∧
      ∀ i, i + m ≤ inv.length → (mask[i]? = some true ↔ ∃ k, k < m ∧ inv[i + k]? = some true) := by
  refine ⟨_, Filter.invalidSubseq_ok inv m hm (by omega), by simp; omega, fun i hi => ?_⟩
  rw [← Filter.maskOf, Filter.maskOf_getElem?, if_pos (by omega), Option.some_inj, Filter.hasInvalid_iff]
  constructor
  · rintro ⟨k, x, hk, hx, hp⟩; exact ⟨k, hk, by rw [hx]; exact congrArg some hp⟩
  · rintro ⟨k, hk, hx⟩; exact ⟨k, true, hk, hx, rfl⟩

/-- a mask with an isolated and a final invalid point, m = 2 -/
example : Filter.invalidSubseq [false, true, false, false, true] 2 = .ok [true, true, false, true] := rfl

namespace Filter
variable {G K : Type} [Zero K]

/-- One call (outputs discarded). -/
def exec (ops : GenOps G K) (g : G) : GOp (Fl K) → Except PyErr G
  | .series v => ops.appendSeries g v
  | .query v => ops.appendQuery g v
  | .column c => (ops.calcColumn g c).map Prod.fst
  | .diag d => (ops.calcDiagonal g d).map Prod.fst

/-- A sequence of calls; stops at the first one that raises. -/
def run (ops : GenOps G K) (g : G) : List (GOp (Fl K)) → Except PyErr G
  | [] => .ok g
  | op :: l => do run ops (← exec ops g op) l

variable {ops : GenOps G K} {m N : Nat} {M : Option Nat} {D : List K → List K → Fl K} {Ok : GSt K → GOp K → Prop} {Inv : G → GSt K → Prop}
variable {f : List (Fl K) → Int → List Bool} {p : Fl K → Bool}

theorem applyValidation_ok (hf : ∀ l m, f l m = l.map p) (data : List (Fl K)) (m : Int) : applyValidation data m f = .ok (data.map p) := by
  unfold applyValidation
  rw [hf]; simp

theorem zeroed_eq (hp : ∀ x, p x = false → ∃ y, x = .fin y) (data : List (Fl K)) :
    zeroed data (data.map p) = (data.map (cleanPoint p)).map .fin := by
  unfold zeroed
  induction data with
  | nil => rfl
  | cons x l ih =>
    rw [List.map_cons, List.zipWith_cons_cons, ih, List.map_cons, List.map_cons]
    congr 1
    unfold cleanPoint
    cases h : p x with
    | true => rfl
    | false => obtain ⟨y, rfl⟩ := hp x h; rfl

theorem correctData_ok (hf : ∀ l m, f l m = l.map p) (hp : ∀ x, p x = false → ∃ y, x = .fin y) (hm : 0 < m) (data : List (Fl K)) (h : m ≤ data.length) :
    correctData data m f = .ok ((data.map (cleanPoint p)).map .fin, maskOf p m data) := by
  unfold correctData
  simp only [applyValidation_ok hf, bind, Except.bind, pure, Except.pure]
  rw [invalidSubseq_ok _ m hm (by rw [List.length_map]; omega), maskOf_map]
  simp only [zeroed_eq hp]

/-- A subsequence without invalid points is its cleaned version. -/
theorem win_clean (hp : ∀ x, p x = false → ∃ y, x = .fin y) (l : List (Fl K)) (i : Nat) (h : hasInvalid p m l i = false) :
    (l.drop i).take m = (win m (l.map (cleanPoint p)) i).map .fin := by
  unfold win
  rw [← List.map_drop, ← List.map_take, List.map_map]
  unfold hasInvalid at h
  rw [List.any_eq_false] at h
  conv_lhs => rw [← List.map_id ((l.drop i).take m)]
  apply List.map_congr_left
  intro x hx
  have := h x hx
  rw [Bool.not_eq_true] at this
  obtain ⟨y, rfl⟩ := hp x this
  simp [cleanPoint, this]

omit [Zero K] in
theorem npMaskFill_getElem? {α : Type} (a : List α) (mask : List Bool) (x : α) (h : a.length = mask.length) :
    ∃ r, npMaskFill a mask x = .ok r ∧ r.length = a.length ∧ ∀ i : Nat, i < a.length → ∀ b v, mask[i]? = some b → a[i]? = some v →
      r[i]? = some (if b then x else v) := by
  unfold npMaskFill
  rw [if_pos h]
  refine ⟨_, rfl, by simp [h], fun i hi b v hb hv => ?_⟩
  rw [List.getElem?_zipWith, hb, hv]

/-- Masking a column. -/
theorem maskColumn_ok (hp : ∀ x, p x = false → ∃ y, x = .fin y) (s q : List (Fl K)) (c : Nat) (hc : hasInvalid p m s c = false) :
    ∃ vs, npMaskFill ((List.range (q.length + 1 - m)).map fun i => D (win m (s.map (cleanPoint p)) c) (win m (q.map (cleanPoint p)) i)) (maskOf p m q)
        .pinf = .ok vs ∧ vs.length = q.length + 1 - m ∧
      ∀ i, i + m ≤ q.length → ∃ x, vs[i]? = some x ∧ Filtered p m D s q i c x := by
  obtain ⟨vs, h1, h2, h3⟩ := npMaskFill_getElem? ((List.range (q.length + 1 - m)).map fun i =>
    D (win m (s.map (cleanPoint p)) c) (win m (q.map (cleanPoint p)) i)) (maskOf p m q) .pinf (by simp [maskOf_length])
  refine ⟨vs, h1, by simp [h2], fun i hi => ?_⟩
  have hlt : i < q.length + 1 - m := by omega
  have := h3 i (by simpa using hlt) (hasInvalid p m q i) _ (by rw [maskOf_getElem?, if_pos hlt]) (by rw [List.getElem?_map, List.getElem?_range hlt]; rfl)
  refine ⟨_, this, ?_, ?_⟩
  · rintro (h | h)
    · rw [hc] at h; cases h
    · rw [h]; rfl
  · intro h h'
    exact ⟨_, _, win_clean hp s c h, win_clean hp q i h', by rw [h']; rfl⟩

/-- Masking a diagonal. -/
theorem maskDiagonal_ok (hp : ∀ x, p x = false → ∃ y, x = .fin y) (s q : List (Fl K)) (d : Int)
    (hv : d + m ≤ s.length ∧ -d + m ≤ q.length ∧ m ≤ s.length ∧ m ≤ q.length) :
    ∃ vs, maskDiagonal (maskOf p m s) (maskOf p m q) d ((List.range (diagEntries m q.length s.length d)).map fun k =>
        D (win m (s.map (cleanPoint p)) (d.toNat + k)) (win m (q.map (cleanPoint p)) ((-d).toNat + k))) = .ok vs ∧
      vs.length = diagEntries m q.length s.length d ∧
      ∀ k, k < diagEntries m q.length s.length d → ∃ x, vs[k]? = some x ∧ Filtered p m D s q ((-d).toNat + k) (d.toNat + k) x := by
  obtain ⟨v1, v2, v3, v4⟩ := hv
  set L := diagEntries m q.length s.length d with hL
  have hLs : d.toNat + L ≤ s.length + 1 - m := by rw [hL, diagEntries]; omega
  have hLq : (-d).toNat + L ≤ q.length + 1 - m := by rw [hL, diagEntries]; omega
  set V := (List.range L).map fun k => D (win m (s.map (cleanPoint p)) (d.toNat + k)) (win m (q.map (cleanPoint p)) ((-d).toNat + k)) with hV
  have hVl : V.length = L := by simp [hV]
  have hVk : ∀ k, k < L → V[k]? = some (D (win m (s.map (cleanPoint p)) (d.toNat + k)) (win m (q.map (cleanPoint p)) ((-d).toNat + k))) := by
    intro k hk; rw [hV, List.getElem?_map, List.getElem?_range hk]; rfl
  have hms : ∀ (i : Nat) (l : List (Fl K)), i + L ≤ l.length + 1 - m → (((maskOf p m l).drop i).take L).length = L ∧
      ∀ k, k < L → (((maskOf p m l).drop i).take L)[k]? = some (hasInvalid p m l (i + k)) := by
    intro i l h
    refine ⟨by rw [List.length_take, List.length_drop, maskOf_length]; omega, fun k hk => ?_⟩
    rw [List.getElem?_take, if_pos hk, List.getElem?_drop, maskOf_getElem?, if_pos (by omega)]
  obtain ⟨s1, s2⟩ := hms _ s hLs
  obtain ⟨q1, q2⟩ := hms _ q hLq
  obtain ⟨r, h1, h2, h3⟩ := npMaskFill_getElem? V _ Fl.pinf (by rw [hVl, s1])
  obtain ⟨r', h4, h5, h6⟩ := npMaskFill_getElem? r _ Fl.pinf (by rw [h2, hVl, q1])
  refine ⟨r', ?_, by rw [h5, h2, hVl], fun k hk => ?_⟩
  · unfold maskDiagonal
    by_cases hd : d ≥ 0
    · obtain ⟨n, rfl⟩ : ∃ n : Nat, d = n := ⟨d.toNat, by omega⟩
      have e1 : pySlice (maskOf p m s) (n : Int) ((n : Int) + (V.length : Int)) = ((maskOf p m s).drop (n : Int).toNat).take L := by
        rw [pySlice_nat_add, hVl]; rfl
      have e2 : pyTo (maskOf p m q) (V.length : Int) = ((maskOf p m q).drop (-(n : Int)).toNat).take L := by
        rw [pyTo_nat, hVl, show (-(n : Int)).toNat = 0 by omega, List.drop_zero]
      rw [if_pos hd, e1, e2, h1]
      exact h4
    · obtain ⟨n, rfl⟩ : ∃ n : Nat, d = -(n : Int) := ⟨(-d).toNat, by omega⟩
      have e1 : pySlice (maskOf p m q) (- -(n : Int)) (- -(n : Int) + (V.length : Int)) = ((maskOf p m q).drop (- -(n : Int)).toNat).take L := by
        rw [neg_neg, pySlice_nat_add, hVl]; rfl
      have e2 : pyTo (maskOf p m s) (V.length : Int) = ((maskOf p m s).drop (-(n : Int)).toNat).take L := by
        rw [pyTo_nat, hVl, show (-(n : Int)).toNat = 0 by omega, List.drop_zero]
      rw [if_neg hd, e1, e2, h1]
      exact h4
  · have a := h3 k (by omega) _ _ (s2 k hk) (hVk k hk)
    have b := h6 k (by omega) _ _ (q2 k hk) a
    refine ⟨_, b, ?_, ?_⟩
    · rintro (h | h)
      · rw [h]; simp
      · rw [h]; simp
    · intro h h'
      exact ⟨_, _, win_clean hp s _ h, win_clean hp q _ h', by rw [h, h']; simp⟩

/-! ### Streaming -/

/-- The masks for the query window. -/
def QMasks (r : Option (RB Bool × RB Bool)) (m : Nat) (M : Option Nat) (p : Fl K → Bool) (s q : List (Fl K)) : Prop :=
  match M with
  | none => r = none ∧ q = s
  | some M => m ≤ M ∧ ∃ r', r = some r' ∧ MasksOk r' M m p q

/-- Invariant of the streaming filter; `last` is what the wrapped generator saw last. -/
structure SInv (Inv : G → GSt K → Prop) (m N : Nat) (M : Option Nat) (p : Fl K → Bool) (b : Streaming G) (st : GSt (Fl K))
    (last : Option (Int × Bool)) : Prop where
  m_eq : b.m = m
  m_pos : 0 < m
  m_le : m ≤ N
  gen : Inv b.gen (cleanSt p st last)
  sMasks : MasksOk (b.invSeries, b.sSub) N m p st.s
  qMasks : QMasks b.query m M p st.s st.q

omit [Zero K] in
theorem qMask_eq {b : Streaming G} {m N : Nat} {M : Option Nat} {s q : List (Fl K)} (h : MasksOk (b.invSeries, b.sSub) N m p s)
    (hq : QMasks b.query m M p s q) : b.qMask = maskOf p m q := by
  unfold Streaming.qMask
  cases M with
  | none => obtain ⟨h1, rfl⟩ := hq; rw [h1]; exact h.sub_eq
  | some M => obtain ⟨-, r, h1, h2⟩ := hq; rw [h1]; exact h2.sub_eq

theorem cleanSt_series (st : GSt (Fl K)) (last : Option (Int × Bool)) (v : List (Fl K)) :
    ∃ last', (cleanSt p st last).step N M (.series (v.map (cleanPoint p))) = cleanSt p (st.step N M (.series v)) last' := by
  by_cases hv : v.length = 0
  · exact ⟨last, by simp [GSt.step, hv]⟩
  · cases M <;> simp [GSt.step, hv, cleanSt, ← List.map_append, lastN_map]

theorem cleanSt_query (st : GSt (Fl K)) (last : Option (Int × Bool)) (v : List (Fl K)) :
    ∃ last', (cleanSt p st last).step N M (.query (v.map (cleanPoint p))) = cleanSt p (st.step N M (.query v)) last' := by
  cases M with
  | none => exact ⟨last, rfl⟩
  | some M =>
    by_cases hv : v.length = 0
    · exact ⟨last, by simp [GSt.step, hv]⟩
    · simp [GSt.step, hv, cleanSt, ← List.map_append, lastN_map]

/-- Column request on a streaming filter. -/
theorem Streaming.calcColumn_ok (hS : Serves ops m N M D Ok Inv) (hp : ∀ x, p x = false → ∃ y, x = .fin y) (b : Streaming G) (st : GSt (Fl K))
    (last : Option (Int × Bool)) (h : SInv Inv m N M p b st last) (c : Nat) (hv : st.Valid m M (.column c))
    (hok : ∀ op ∈ cleanOp p m st (.column c), Ok (cleanSt p st last) op) :
    ∃ b' vs last', b.calcColumn ops c = .ok (b', vs) ∧ SInv Inv m N M p b' (st.step N M (.column c)) last' ∧
      (cleanSt p st last).run N M (cleanOp p m st (.column c)) = cleanSt p (st.step N M (.column c)) last' ∧ vs.length = st.q.length + 1 - m ∧
      ∀ i, i + m ≤ st.q.length → ∃ x, vs[i]? = some x ∧ Filtered p m D st.s st.q i c x := by
  obtain ⟨v1, v2⟩ := hv
  have hm := h.m_pos
  have hget : pyGet b.sSub.items (c : Int) = .ok (hasInvalid p m st.s c) := by
    rw [pyGet_nat_ok, h.sMasks.sub_eq, maskOf_getElem?, if_pos (by omega)]
  have hq := qMask_eq h.sMasks h.qMasks
  unfold Streaming.calcColumn
  simp only [hget, bind, Except.bind]
  rw [cleanOp] at hok ⊢
  cases hi : hasInvalid p m st.s c with
  | true =>
    have hfull : fullInf (K := K) (b.qMask.length : Int) = .ok (List.replicate (st.q.length + 1 - m) .pinf) := by
      unfold fullInf
      rw [if_neg (by omega), hq, maskOf_length]; rfl
    simp only [if_true, hfull, pure, Except.pure]
    refine ⟨b, _, last, rfl, ⟨h.m_eq, h.m_pos, h.m_le, h.gen, h.sMasks, h.qMasks⟩, rfl, by simp, fun i hi' => ?_⟩
    refine ⟨.pinf, by rw [List.getElem?_replicate, if_pos (by omega)], fun _ => rfl, fun h1 => ?_⟩
    rw [hi] at h1; cases h1
  | false =>
    rw [hi] at hok
    obtain ⟨g', h1, h2⟩ := hS.column b.gen _ c h.gen (hok (.column c) (by simp))
    simp only [cleanSt, List.length_map] at h1
    obtain ⟨vs, h3, h4, h5⟩ := maskColumn_ok (m := m) (D := D) hp st.s st.q c hi
    simp only [Bool.false_eq_true, if_false, h1, hq, h3, pure, Except.pure]
    exact ⟨_, vs, some ((c : Int), true), rfl, ⟨h.m_eq, h.m_pos, h.m_le, h2, h.sMasks, h.qMasks⟩, rfl, h4, h5⟩

/-- Diagonal request on a streaming filter. -/
theorem Streaming.calcDiagonal_ok (hS : Serves ops m N M D Ok Inv) (hp : ∀ x, p x = false → ∃ y, x = .fin y) (b : Streaming G) (st : GSt (Fl K))
    (last : Option (Int × Bool)) (h : SInv Inv m N M p b st last) (d : Int) (hv : st.Valid m M (.diag d)) (hok : Ok (cleanSt p st last) (.diag d)) :
    ∃ b' vs, b.calcDiagonal ops d = .ok (b', vs) ∧ SInv Inv m N M p b' st last ∧ vs.length = diagEntries m st.q.length st.s.length d ∧
      ∀ k, k < diagEntries m st.q.length st.s.length d → ∃ x, vs[k]? = some x ∧ Filtered p m D st.s st.q ((-d).toNat + k) (d.toNat + k) x := by
  obtain ⟨g', h1, h2⟩ := hS.diag b.gen _ d h.gen hok
  simp only [cleanSt, List.length_map] at h1
  obtain ⟨vs, h3, h4, h5⟩ := maskDiagonal_ok (D := D) hp st.s st.q d hv
  unfold Streaming.calcDiagonal
  simp only [h1, bind, Except.bind, qMask_eq h.sMasks h.qMasks, h.sMasks.sub_eq, h3, pure, Except.pure]
  exact ⟨_, vs, rfl, ⟨h.m_eq, h.m_pos, h.m_le, h2, h.sMasks, h.qMasks⟩, h4, h5⟩

theorem Streaming.exec_ok (hS : Serves ops m N M D Ok Inv) (hf : ∀ l m, f l m = l.map p) (hp : ∀ x, p x = false → ∃ y, x = .fin y) (b : Streaming G)
    (st : GSt (Fl K)) (last : Option (Int × Bool)) (h : SInv Inv m N M p b st last) (op : GOp (Fl K)) (hv : st.Valid m M op) (hne : op.NonEmpty)
    (hok : ∀ op' ∈ cleanOp p m st op, Ok (cleanSt p st last) op') :
    ∃ b' last', exec (Streaming.ops ops f) b op = .ok b' ∧ SInv Inv m N M p b' (st.step N M op) last' ∧
      (cleanSt p st last).run N M (cleanOp p m st op) = cleanSt p (st.step N M op) last' := by
  cases op with
  | series v =>
    have hne : 0 < v.length := List.length_pos_iff.mpr hne
    obtain ⟨r, h1, h2⟩ := pushMasks_ok p _ N m st.s v h.m_pos h.m_le hne h.sMasks
    obtain ⟨g', h3, h4⟩ := hS.series b.gen _ _ h.gen (hok (.series (v.map (cleanPoint p))) (by simp [cleanOp]))
    obtain ⟨last', h5⟩ := cleanSt_series (p := p) (N := N) (M := M) st last v
    rw [h5] at h4
    refine ⟨{ b with gen := g', invSeries := r.1, sSub := r.2 }, last', ?_, ?_, h5⟩
    · show b.appendSeries ops f v = _
      unfold Streaming.appendSeries
      simp only [applyValidation_ok hf, bind, Except.bind, h.m_eq, h1, zeroed_eq hp, h3, pure, Except.pure]
    · have hq := h.qMasks
      have hs : (st.step N M (.series v)).s = lastN N (st.s ++ v) := by
        cases M <;> rw [GSt.step, if_neg (by omega)]
      refine ⟨h.m_eq, h.m_pos, h.m_le, h4, by rw [hs]; exact h2, ?_⟩
      cases M with
      | none =>
        have : (st.step N none (.series v)).q = lastN N (st.s ++ v) := by rw [GSt.step, if_neg (by omega)]
        exact ⟨hq.1, by rw [hs, this]⟩
      | some M =>
        have : (st.step N (some M) (.series v)).q = st.q := by rw [GSt.step, if_neg (by omega)]
        unfold QMasks at hq ⊢
        rw [this]; exact hq
  | query v =>
    have hne : 0 < v.length := List.length_pos_iff.mpr hne
    cases M with
    | none => exact absurd rfl hv
    | some M =>
      obtain ⟨hM, rq, hr, hq⟩ := h.qMasks
      obtain ⟨r, h1, h2⟩ := pushMasks_ok p _ M m st.q v h.m_pos hM hne hq
      obtain ⟨g', h3, h4⟩ := hS.query b.gen _ _ h.gen (hok (.query (v.map (cleanPoint p))) (by simp [cleanOp]))
      obtain ⟨last', h5⟩ := cleanSt_query (p := p) (N := N) (M := some M) st last v
      rw [h5] at h4
      refine ⟨{ b with gen := g', query := some r }, last', ?_, ?_, h5⟩
      · show b.appendQuery ops f v = _
        unfold Streaming.appendQuery
        simp only [hr, applyValidation_ok hf, bind, Except.bind, h.m_eq, h1, zeroed_eq hp, h3, pure, Except.pure]
      · have hs : st.step N (some M) (.query v) = ⟨st.s, lastN M (st.q ++ v), none⟩ := by
          rw [GSt.step, if_neg (by omega)]
        refine ⟨h.m_eq, h.m_pos, h.m_le, h4, by rw [hs]; exact h.sMasks, ?_⟩
        rw [hs]
        exact ⟨hM, r, rfl, h2⟩
  | column c =>
    obtain ⟨b', vs, last', h1, h2, h3, -⟩ := Streaming.calcColumn_ok hS hp b st last h c hv hok
    exact ⟨b', last', by simp [exec, Streaming.ops, h1, Except.map], h2, h3⟩
  | diag d =>
    obtain ⟨b', vs, h1, h2, -⟩ := Streaming.calcDiagonal_ok hS hp b st last h d hv (hok (.diag d) (by simp [cleanOp]))
    exact ⟨b', last, by simp [exec, Streaming.ops, h1, Except.map], h2, rfl⟩

omit [Zero K] in
theorem all_single {st : GSt K} {l : List (GOp K)} (hl : l.length ≤ 1) (h : st.All N M Ok l) : ∀ op ∈ l, Ok st op := by
  match l, h with
  | [], _ => simp
  | [op], h => intro o ho; rw [List.mem_singleton.mp ho]; exact h.1

theorem cleanOp_length (st : GSt (Fl K)) (op : GOp (Fl K)) : (cleanOp p m st op).length ≤ 1 := by
  cases op <;> simp [cleanOp]
  split <;> simp

omit [Zero K] in
theorem run_append (st : GSt K) (a b : List (GOp K)) : st.run N M (a ++ b) = (st.run N M a).run N M b := by
  simp [GSt.run]

theorem Streaming.run_ok (hS : Serves ops m N M D Ok Inv) (hf : ∀ l m, f l m = l.map p) (hp : ∀ x, p x = false → ∃ y, x = .fin y) (b : Streaming G)
    (st : GSt (Fl K)) (last : Option (Int × Bool)) (h : SInv Inv m N M p b st last) (l : List (GOp (Fl K)))
    (hv : st.All N M (fun st op => st.Valid m M op ∧ op.NonEmpty) l) (hok : (cleanSt p st last).All N M Ok (cleanOps p m N M st l)) :
    ∃ b' last', run (Streaming.ops ops f) b l = .ok b' ∧ SInv Inv m N M p b' (st.run N M l) last' ∧
      (cleanSt p st last).run N M (cleanOps p m N M st l) = cleanSt p (st.run N M l) last' := by
  induction l generalizing b st last with
  | nil => exact ⟨b, last, rfl, h, rfl⟩
  | cons op l ih =>
    obtain ⟨ha, hb⟩ := GSt.All.split hok
    obtain ⟨b1, last1, h1, h2, h3⟩ := Streaming.exec_ok hS hf hp b st last h op hv.1.1 hv.1.2 (all_single (cleanOp_length st op) ha)
    rw [h3] at hb
    obtain ⟨b2, last2, h4, h5, h6⟩ := ih b1 (st.step N M op) last1 h2 hv.2 hb
    refine ⟨b2, last2, by simp only [run, h1, bind, Except.bind]; exact h4, h5, ?_⟩
    rw [cleanOps, run_append, h3]
    exact h6

/-- A new streaming filter. -/
theorem Streaming.fresh (prepS : Int → Nat → Option Nat → Except PyErr G) (mem : Nat → List Bool) (hmem : ∀ n, (mem n).length = n) (scale : ℚ)
    (h1 : 1 ≤ scale) (h2 : scale ≤ 2) (hm : 0 < m) (hN : m ≤ N) (hM : ∀ M', M = some M' → m ≤ M') (g : G) (hg : prepS m N M = .ok g)
    (hi : Inv g ⟨[], [], none⟩) :
    ∃ b, prepareStreaming prepS mem scale m N M = .ok b ∧ SInv Inv m N M p b ⟨[], [], none⟩ none := by
  obtain ⟨r, a1, a2⟩ := emptyMasks_ok p mem hmem scale h1 h2 m N hm hN
  unfold prepareStreaming
  simp only [if_neg (not_lt.mpr h1), hg, a1, bind, Except.bind, pure, Except.pure]
  cases M with
  | none => exact ⟨_, rfl, rfl, hm, hN, hi, a2, rfl, rfl⟩
  | some M =>
    obtain ⟨r', b1, b2⟩ := emptyMasks_ok p mem hmem scale h1 h2 m M hm (hM M rfl)
    simp only [emptyQueryMasks, b1, Except.map]
    exact ⟨_, rfl, rfl, hm, hN, hi, a2, hM M rfl, _, rfl, b2⟩

/-! ### Masks, whatever the wrapped generator does -/

/-- The masks of a streaming filter match its windows. -/
structure SMasks (m N : Nat) (M : Option Nat) (p : Fl K → Bool) (b : Streaming G) (st : GSt (Fl K)) : Prop where
  m_eq : b.m = m
  m_pos : 0 < m
  m_le : m ≤ N
  sMasks : MasksOk (b.invSeries, b.sSub) N m p st.s
  qMasks : QMasks b.query m M p st.s st.q

theorem Streaming.exec_masks (hf : ∀ l m, f l m = l.map p) (b b' : Streaming G) (st : GSt (Fl K)) (h : SMasks m N M p b st) (op : GOp (Fl K))
    (hne : op.NonEmpty) (hr : exec (Streaming.ops ops f) b op = .ok b') : SMasks m N M p b' (st.step N M op) := by
  cases op with
  | series v =>
    have hne : 0 < v.length := List.length_pos_iff.mpr hne
    obtain ⟨r, h1, h2⟩ := pushMasks_ok p _ N m st.s v h.m_pos h.m_le hne h.sMasks
    change b.appendSeries ops f v = _ at hr
    unfold Streaming.appendSeries at hr
    simp only [applyValidation_ok hf, bind, Except.bind, h.m_eq, h1, pure, Except.pure] at hr
    cases hg : ops.appendSeries b.gen (zeroed v (v.map p)) with
    | error e => rw [hg] at hr; cases hr
    | ok g =>
      rw [hg] at hr; cases hr
      have hq := h.qMasks
      have hs : (st.step N M (.series v)).s = lastN N (st.s ++ v) := by cases M <;> rw [GSt.step, if_neg (by omega)]
      refine ⟨rfl, h.m_pos, h.m_le, by rw [hs]; exact h2, ?_⟩
      cases M with
      | none =>
        have : (st.step N none (.series v)).q = lastN N (st.s ++ v) := by rw [GSt.step, if_neg (by omega)]
        exact ⟨hq.1, by rw [hs, this]⟩
      | some M =>
        have : (st.step N (some M) (.series v)).q = st.q := by rw [GSt.step, if_neg (by omega)]
        unfold QMasks at hq ⊢
        rw [this]; exact hq
  | query v =>
    have hne : 0 < v.length := List.length_pos_iff.mpr hne
    change b.appendQuery ops f v = _ at hr
    unfold Streaming.appendQuery at hr
    cases M with
    | none => rw [h.qMasks.1] at hr; cases hr
    | some M =>
      obtain ⟨hM, rq, hrq, hq⟩ := h.qMasks
      obtain ⟨r, h1, h2⟩ := pushMasks_ok p _ M m st.q v h.m_pos hM hne hq
      simp only [hrq, applyValidation_ok hf, bind, Except.bind, h.m_eq, h1, pure, Except.pure] at hr
      cases hg : ops.appendQuery b.gen (zeroed v (v.map p)) with
      | error e => rw [hg] at hr; cases hr
      | ok g =>
        rw [hg] at hr; cases hr
        have hs : st.step N (some M) (.query v) = ⟨st.s, lastN M (st.q ++ v), none⟩ := by rw [GSt.step, if_neg (by omega)]
        refine ⟨rfl, h.m_pos, h.m_le, by rw [hs]; exact h.sMasks, ?_⟩
        rw [hs]
        exact ⟨hM, r, rfl, h2⟩
  | column c =>
    have : ∃ g, b' = { b with gen := g } := by
      change (b.calcColumn ops c).map _ = _ at hr
      unfold Streaming.calcColumn at hr
      simp only [bind, Except.bind, pure, Except.pure] at hr
      split at hr
      · cases hr
      · split at hr
        · split at hr <;> cases hr
          exact ⟨b.gen, rfl⟩
        · split at hr
          · cases hr
          · split at hr <;> cases hr
            exact ⟨_, rfl⟩
    obtain ⟨g, rfl⟩ := this
    exact ⟨h.m_eq, h.m_pos, h.m_le, h.sMasks, h.qMasks⟩
  | diag d =>
    have : ∃ g, b' = { b with gen := g } := by
      change (b.calcDiagonal ops d).map _ = _ at hr
      unfold Streaming.calcDiagonal at hr
      simp only [bind, Except.bind, pure, Except.pure] at hr
      split at hr
      · cases hr
      · split at hr <;> cases hr
        exact ⟨_, rfl⟩
    obtain ⟨g, rfl⟩ := this
    exact ⟨h.m_eq, h.m_pos, h.m_le, h.sMasks, h.qMasks⟩

theorem Streaming.run_masks (hf : ∀ l m, f l m = l.map p) (b b' : Streaming G) (st : GSt (Fl K)) (h : SMasks m N M p b st) (l : List (GOp (Fl K)))
    (hne : ∀ op ∈ l, op.NonEmpty) (hr : run (Streaming.ops ops f) b l = .ok b') : SMasks m N M p b' (st.run N M l) := by
  induction l generalizing b st with
  | nil => cases hr; exact h
  | cons op l ih =>
    simp only [run, bind, Except.bind] at hr
    cases he : exec (Streaming.ops ops f) b op with
    | error e => rw [he] at hr; cases hr
    | ok b1 =>
      rw [he] at hr
      exact ih b1 (st.step N M op) (Streaming.exec_masks hf b b1 st h op (hne op (by simp)) he) (fun o ho => hne o (by simp [ho])) hr

/-! ### Batch -/

/-- Invariant of the batch filter. -/
structure BInv (Inv : G → GSt K → Prop) (m : Nat) (p : Fl K → Bool) (b : Batch G) (st : GSt (Fl K)) (last : Option (Int × Bool)) : Prop where
  gen : Inv b.gen (cleanSt p st last)
  sMask : b.sMask = maskOf p m st.s
  qMask : b.qMask = maskOf p m st.q
  numQ : b.numQ = (st.q.length : Int) - m + 1

theorem Batch.fresh (hf : ∀ l m, f l m = l.map p) (hp : ∀ x, p x = false → ∃ y, x = .fin y)
    (prep : Int → List (Fl K) → Option (List (Fl K)) → Except PyErr G) (hm : 0 < m) (s : List (Fl K)) (q : Option (List (Fl K))) (hs : m ≤ s.length)
    (hq : ∀ q', q = some q' → m ≤ q'.length)
    (hprep : ∃ g, prep m ((s.map (cleanPoint p)).map .fin) (q.map fun q => (q.map (cleanPoint p)).map .fin) = .ok g ∧
      Inv g ⟨s.map (cleanPoint p), (q.getD s).map (cleanPoint p), none⟩) :
    ∃ b, prepare prep f m s q = .ok b ∧ BInv Inv m p b ⟨s, q.getD s, none⟩ none := by
  obtain ⟨g, h1, h2⟩ := hprep
  unfold prepare
  simp only [correctData_ok hf hp hm s hs, bind, Except.bind, pure, Except.pure]
  cases q with
  | none =>
    simp only [Option.map_none] at h1
    simp only [prepareQuery, h1]
    exact ⟨_, rfl, h2, rfl, rfl, rfl⟩
  | some q =>
    simp only [Option.map_some] at h1
    simp only [prepareQuery, correctData_ok hf hp hm q (hq q rfl), bind, Except.bind, pure, Except.pure, h1]
    exact ⟨_, rfl, h2, rfl, rfl, rfl⟩

theorem Batch.calcColumn_ok (hS : Serves ops m N M D Ok Inv) (hp : ∀ x, p x = false → ∃ y, x = .fin y) (b : Batch G) (st : GSt (Fl K))
    (last : Option (Int × Bool)) (h : BInv Inv m p b st last) (c : Nat) (hv : st.Valid m M (.column c))
    (hok : ∀ op ∈ cleanOp p m st (.column c), Ok (cleanSt p st last) op) :
    ∃ b' vs last', b.calcColumn ops c = .ok (b', vs) ∧ BInv Inv m p b' (st.step N M (.column c)) last' ∧
      (cleanSt p st last).run N M (cleanOp p m st (.column c)) = cleanSt p (st.step N M (.column c)) last' ∧ vs.length = st.q.length + 1 - m ∧
      ∀ i, i + m ≤ st.q.length → ∃ x, vs[i]? = some x ∧ Filtered p m D st.s st.q i c x := by
  obtain ⟨v1, v2⟩ := hv
  have hget : pyGet b.sMask (c : Int) = .ok (hasInvalid p m st.s c) := by
    rw [pyGet_nat_ok, h.sMask, maskOf_getElem?, if_pos (by omega)]
  have hq := h.qMask
  unfold Batch.calcColumn
  simp only [hget, bind, Except.bind]
  rw [cleanOp] at hok ⊢
  cases hi : hasInvalid p m st.s c with
  | true =>
    have hfull : fullInf (K := K) b.numQ = .ok (List.replicate (st.q.length + 1 - m) .pinf) := by
      unfold fullInf
      rw [h.numQ, if_neg (by omega)]
      congr 2; omega
    simp only [if_true, hfull, pure, Except.pure]
    refine ⟨b, _, last, rfl, ⟨h.gen, h.sMask, h.qMask, h.numQ⟩, rfl, by simp, fun i hi' => ?_⟩
    refine ⟨.pinf, by rw [List.getElem?_replicate, if_pos (by omega)], fun _ => rfl, fun h1 => ?_⟩
    rw [hi] at h1; cases h1
  | false =>
    rw [hi] at hok
    obtain ⟨g', h1, h2⟩ := hS.column b.gen _ c h.gen (hok (.column c) (by simp))
    simp only [cleanSt, List.length_map] at h1
    obtain ⟨vs, h3, h4, h5⟩ := maskColumn_ok (m := m) (D := D) hp st.s st.q c hi
    simp only [Bool.false_eq_true, if_false, h1, hq, h3, pure, Except.pure]
    exact ⟨_, vs, some ((c : Int), true), rfl, ⟨h2, h.sMask, rfl, h.numQ⟩, rfl, h4, h5⟩

theorem Batch.calcDiagonal_ok (hS : Serves ops m N M D Ok Inv) (hp : ∀ x, p x = false → ∃ y, x = .fin y) (b : Batch G) (st : GSt (Fl K))
    (last : Option (Int × Bool)) (h : BInv Inv m p b st last) (d : Int) (hv : st.Valid m M (.diag d)) (hok : Ok (cleanSt p st last) (.diag d)) :
    ∃ b' vs, b.calcDiagonal ops d = .ok (b', vs) ∧ BInv Inv m p b' st last ∧ vs.length = diagEntries m st.q.length st.s.length d ∧
      ∀ k, k < diagEntries m st.q.length st.s.length d → ∃ x, vs[k]? = some x ∧ Filtered p m D st.s st.q ((-d).toNat + k) (d.toNat + k) x := by
  obtain ⟨g', h1, h2⟩ := hS.diag b.gen _ d h.gen hok
  simp only [cleanSt, List.length_map] at h1
  obtain ⟨vs, h3, h4, h5⟩ := maskDiagonal_ok (D := D) hp st.s st.q d hv
  unfold Batch.calcDiagonal
  simp only [h1, bind, Except.bind, h.qMask, h.sMask, h3, pure, Except.pure]
  exact ⟨_, vs, rfl, ⟨h2, rfl, rfl, h.numQ⟩, h4, h5⟩

theorem Batch.run_ok (hS : Serves ops m N M D Ok Inv) (hp : ∀ x, p x = false → ∃ y, x = .fin y) (b : Batch G)
    (st : GSt (Fl K)) (last : Option (Int × Bool)) (h : BInv Inv m p b st last) (l : List (GOp (Fl K)))
    (hl : ∀ op ∈ l, (∃ c, op = .column c) ∨ ∃ d, op = .diag d)
    (hv : st.All N M (fun st op => st.Valid m M op) l) (hok : (cleanSt p st last).All N M Ok (cleanOps p m N M st l)) :
    ∃ b' last', run (Batch.ops ops) b l = .ok b' ∧ BInv Inv m p b' (st.run N M l) last' ∧
      (cleanSt p st last).run N M (cleanOps p m N M st l) = cleanSt p (st.run N M l) last' := by
  induction l generalizing b st last with
  | nil => exact ⟨b, last, rfl, h, rfl⟩
  | cons op l ih =>
    obtain ⟨ha, hb⟩ := GSt.All.split hok
    have ha := all_single (cleanOp_length st op) ha
    have h1 : ∃ b' last', exec (Batch.ops ops) b op = .ok b' ∧ BInv Inv m p b' (st.step N M op) last' ∧
        (cleanSt p st last).run N M (cleanOp p m st op) = cleanSt p (st.step N M op) last' := by
      rcases hl op (by simp) with ⟨c, rfl⟩ | ⟨d, rfl⟩
      · obtain ⟨b', vs, last', h1, h2, h3, -⟩ := Batch.calcColumn_ok hS hp b st last h c hv.1 ha
        exact ⟨b', last', by simp [exec, Batch.ops, h1, Except.map], h2, h3⟩
      · obtain ⟨b', vs, h1, h2, -⟩ := Batch.calcDiagonal_ok hS hp b st last h d hv.1 (ha (.diag d) (by simp [cleanOp]))
        exact ⟨b', last, by simp [exec, Batch.ops, h1, Except.map], h2, rfl⟩
    obtain ⟨b1, last1, h1, h2, h3⟩ := h1
    rw [h3] at hb
    obtain ⟨b2, last2, h4, h5, h6⟩ := ih b1 (st.step N M op) last1 h2 (fun o ho => hl o (by simp [ho])) hv.2 hb
    refine ⟨b2, last2, by simp only [run, h1, bind, Except.bind]; exact h4, h5, ?_⟩
    rw [cleanOps, run_append, h3]
    exact h6

theorem cleanOp_valid (st : GSt (Fl K)) (last : Option (Int × Bool)) (op : GOp (Fl K)) (h : st.Valid m M op) :
    ∀ op' ∈ cleanOp p m st op, (cleanSt p st last).Valid m M op' := by
  intro op' ho
  cases op with
  | series v => rw [List.mem_singleton.mp ho]; trivial
  | query v => rw [List.mem_singleton.mp ho]; exact h
  | column c =>
    rw [cleanOp] at ho
    split at ho
    · cases ho
    · rw [List.mem_singleton.mp ho]; simpa [GSt.Valid, cleanSt] using h
  | diag d => rw [List.mem_singleton.mp ho]; simpa [GSt.Valid, cleanSt] using h

omit [Zero K] in
theorem all_append {q : GSt K → GOp K → Prop} (st : GSt K) (a b : List (GOp K)) (h1 : st.All N M q a) (h2 : (st.run N M a).All N M q b) :
    st.All N M q (a ++ b) := by
  induction a generalizing st with
  | nil => exact h2
  | cons op a ih => exact ⟨h1.1, ih _ h1.2 h2⟩

omit [Zero K] in
theorem all_of_forall {q : GSt K → GOp K → Prop} (st : GSt K) {l : List (GOp K)} (hl : l.length ≤ 1) (h : ∀ op ∈ l, q st op) : st.All N M q l := by
  match l with
  | [] => trivial
  | [op] => exact ⟨h op (by simp), trivial⟩

theorem cleanOp_run (st : GSt (Fl K)) (last : Option (Int × Bool)) (op : GOp (Fl K)) :
    ∃ last', (cleanSt p st last).run N M (cleanOp p m st op) = cleanSt p (st.step N M op) last' := by
  cases op with
  | series v => exact cleanSt_series st last v
  | query v => exact cleanSt_query st last v
  | column c =>
    rw [cleanOp]
    split
    · exact ⟨last, rfl⟩
    · exact ⟨some ((c : Int), true), rfl⟩
  | diag d => exact ⟨last, rfl⟩

theorem cleanOps_valid (st : GSt (Fl K)) (last : Option (Int × Bool)) (l : List (GOp (Fl K))) (h : st.All N M (fun st op => st.Valid m M op) l) :
    (cleanSt p st last).All N M (fun st op => st.Valid m M op) (cleanOps p m N M st l) := by
  induction l generalizing st last with
  | nil => trivial
  | cons op l ih =>
    refine all_append _ _ _ (all_of_forall _ (cleanOp_length st op) (cleanOp_valid st last op h.1)) ?_
    obtain ⟨last', h'⟩ := cleanOp_run (p := p) (m := m) (N := N) (M := M) st last op
    rw [h']
    exact ih _ _ h.2

theorem cleanOps_no_append (st : GSt (Fl K)) (l : List (GOp (Fl K))) (h : ∀ op ∈ l, (∃ c, op = .column c) ∨ ∃ d, op = .diag d) :
    ∀ op ∈ cleanOps p m N M st l, (∃ c, op = .column c) ∨ ∃ d, op = .diag d := by
  induction l generalizing st with
  | nil => simp [cleanOps]
  | cons op l ih =>
    intro o ho
    rcases List.mem_append.mp ho with ho | ho
    · rcases h op (by simp) with ⟨c, rfl⟩ | ⟨d, rfl⟩
      · rw [cleanOp] at ho
        split at ho
        · cases ho
        · exact Or.inl ⟨c, by simpa using ho⟩
      · exact Or.inr ⟨d, by simpa [cleanOp] using ho⟩
    · exact ih _ (fun o ho => h o (by simp [ho])) o ho

omit [Zero K] in
theorem GSt.run_windows {α : Type} {N : Nat} {M : Option Nat} (st : GSt α) (l : List (GOp α)) (hl : ∀ op ∈ l, (∃ c, op = .column c) ∨ ∃ d, op = .diag d) :
    (st.run N M l).s = st.s ∧ (st.run N M l).q = st.q := by
  induction l generalizing st with
  | nil => exact ⟨rfl, rfl⟩
  | cons op l ih =>
    have := ih (st.step N M op) (fun o ho => hl o (by simp [ho]))
    rcases hl op (by simp) with ⟨c, rfl⟩ | ⟨d, rfl⟩
    · exact this
    · exact this

end Filter

section
variable {G K : Type} [Zero K]

/-- A bound generator answers like a filter over `D` on the windows `s`, `q`: every column and diagonal has the right number of
entries, each `Filtered`. -/
def AnswersFiltered {G K : Type} (ops : GenOps G K) (g : G) (p : Fl K → Bool) (m : Nat) (D : List K → List K → Fl K) (s q : List (Fl K))
    (okColumn : Nat → Prop) (okDiag : Int → Prop) : Prop :=
  (∀ c, okColumn c → ∃ g' vs, ops.calcColumn g c = .ok (g', vs) ∧ vs.length = q.length - m + 1 ∧
    ∀ i, i + m ≤ q.length → ∃ x, vs[i]? = some x ∧ Filtered p m D s q i c x) ∧
  (∀ d, okDiag d → ∃ g' vs, ops.calcDiagonal g d = .ok (g', vs) ∧ vs.length = diagEntries m q.length s.length d ∧
    ∀ k, k < diagEntries m q.length s.length d → ∃ x, vs[k]? = some x ∧ Filtered p m D s q ((-d).toNat + k) (d.toNat + k) x)

/-- **C36**, batch, any wrapped generator serving the distance `D`: the filter can be prepared for all data (invalid points
included), answers every valid sequence of column and diagonal requests the wrapped generator can, and then every valid column
or diagonal has `+inf` exactly for pairs with an invalid point and otherwise the distance of the original subsequences.
`p` is the pointwise validity function; every point it accepts must be a number. -/
theorem C36_batch {ops : GenOps G K} {m : Nat} {D : List K → List K → Fl K} {Ok : GSt K → GOp K → Prop} {Inv : G → GSt K → Prop}
    (f : List (Fl K) → Int → List Bool) (p : Fl K → Bool) (hf : ∀ l m, f l m = l.map p) (hp : ∀ x, p x = false → ∃ y, x = .fin y)
    (prep : Int → List (Fl K) → Option (List (Fl K)) → Except PyErr G) (hm : 0 < m) (s : List (Fl K)) (q : Option (List (Fl K))) (hs : m ≤ s.length)
    (hq : ∀ q', q = some q' → m ≤ q'.length) (hS : Serves ops m s.length (q.map (·.length)) D Ok Inv)
    (hprep : ∃ g, prep m ((s.map (cleanPoint p)).map .fin) (q.map fun q => (q.map (cleanPoint p)).map .fin) = .ok g ∧
      Inv g ⟨s.map (cleanPoint p), (q.getD s).map (cleanPoint p), none⟩)
    (hOk : ∀ l, (∀ o ∈ l, (∃ c, o = .column c) ∨ ∃ d, o = .diag d) →
      GSt.All s.length (q.map (·.length)) (fun st o => st.Valid m (q.map (·.length)) o)
        ⟨s.map (cleanPoint p), (q.getD s).map (cleanPoint p), none⟩ l →
      GSt.All s.length (q.map (·.length)) Ok ⟨s.map (cleanPoint p), (q.getD s).map (cleanPoint p), none⟩ l) :
    ∃ b0, Filter.prepare prep f m s q = .ok b0 ∧
      ∀ l : List (GOp (Fl K)), (∀ op ∈ l, (∃ c, op = .column c) ∨ ∃ d, op = .diag d) →
        GSt.All s.length (q.map (·.length)) (fun st op => st.Valid m (q.map (·.length)) op) ⟨s, q.getD s, none⟩ l →
        ∃ b, Filter.run (Filter.Batch.ops ops) b0 l = .ok b ∧
          AnswersFiltered (Filter.Batch.ops ops) b p m D s (q.getD s) (fun c => c + m ≤ s.length)
            (fun d => d + m ≤ s.length ∧ -d + m ≤ (q.getD s).length) := by
  have hqm : m ≤ (q.getD s).length := by
    cases q with
    | none => exact hs
    | some q => exact hq q rfl
  obtain ⟨b0, h1, h2⟩ := Filter.Batch.fresh hf hp prep hm s q hs hq hprep
  refine ⟨b0, h1, fun l hl hv => ?_⟩
  set N := s.length
  set M := q.map (·.length) with hM
  set st0 : GSt (Fl K) := ⟨s, q.getD s, none⟩ with hst0
  have hcl := Filter.cleanOps_no_append (p := p) (m := m) (N := N) (M := M) st0 l hl
  have hcv := Filter.cleanOps_valid (p := p) (m := m) (N := N) (M := M) st0 none l hv
  have hw := Filter.GSt.run_windows (N := N) (M := M) st0 l hl
  have hok := hOk _ hcl hcv
  obtain ⟨b, last, h3, h4, h5⟩ := Filter.Batch.run_ok hS hp b0 st0 none h2 l hl hv hok
  -- the requests the wrapped generator saw, followed by one more
  have hmore : ∀ op : GOp (Fl K), ((∃ c, op = .column c) ∨ ∃ d, op = .diag d) → (st0.run N M l).Valid m M op →
      ∀ o ∈ cleanOp p m (st0.run N M l) op, Ok (cleanSt p (st0.run N M l) last) o := by
    intro op hop hval
    have hc1 : ∀ o ∈ cleanOp p m (st0.run N M l) op, (∃ c, o = .column c) ∨ ∃ d, o = .diag d := by
      have := Filter.cleanOps_no_append (p := p) (m := m) (N := N) (M := M) (st0.run N M l) [op] (by simpa using hop)
      simpa [cleanOps] using this
    have hall := hOk (cleanOps p m N M st0 l ++ cleanOp p m (st0.run N M l) op)
      (fun o ho => (List.mem_append.mp ho).elim (hcl o) (hc1 o))
      (Filter.all_append _ _ _ hcv (Filter.all_of_forall _ (Filter.cleanOp_length _ op) (by
        have := Filter.cleanOp_valid (p := p) (st0.run N M l) last op hval
        rw [← h5] at this
        exact this)))
    have := (GSt.All.split hall).2
    change ((cleanSt p st0 none).run N M _).All N M Ok _ at this
    rw [h5] at this
    exact Filter.all_single (Filter.cleanOp_length _ op) this
  refine ⟨b, h3, fun c hc => ?_, fun d hd => ?_⟩
  · have hval : (st0.run N M l).Valid m M (.column c) := by
      refine ⟨?_, ?_⟩
      · rw [hw.1]; exact hc
      · rw [hw.2]; exact hqm
    obtain ⟨b', vs, last', e1, -, -, e2, e3⟩ := Filter.Batch.calcColumn_ok hS hp b _ last h4 c hval (hmore _ (Or.inl ⟨c, rfl⟩) hval)
    rw [hw.1, hw.2] at e3
    rw [hw.2] at e2
    exact ⟨b', vs, e1, by rw [e2]; show (q.getD s).length + 1 - m = _; omega, e3⟩
  · have hval : (st0.run N M l).Valid m M (.diag d) := by
      refine ⟨?_, ?_, ?_, ?_⟩
      · rw [hw.1]; exact hd.1
      · rw [hw.2]; exact hd.2
      · rw [hw.1]; exact hs
      · rw [hw.2]; exact hqm
    obtain ⟨b', vs, e1, -, e2, e3⟩ := Filter.Batch.calcDiagonal_ok hS hp b _ last h4 d hval
      (hmore _ (Or.inr ⟨d, rfl⟩) hval (.diag d) (by simp [cleanOp]))
    rw [hw.1, hw.2] at e2 e3
    exact ⟨b', vs, e1, e2, e3⟩

/-- **C36**, streaming, any wrapped generator serving the distance `D`: after any sequence of valid requests and non-empty appends
the wrapped generator can serve, columns and diagonals of the current windows have `+inf` exactly for pairs with an invalid point
and otherwise the distance of the original subsequences. -/
theorem C36_streaming {ops : GenOps G K} {m N : Nat} {M : Option Nat} {D : List K → List K → Fl K} {Ok : GSt K → GOp K → Prop}
    {Inv : G → GSt K → Prop} (f : List (Fl K) → Int → List Bool) (p : Fl K → Bool) (hf : ∀ l m, f l m = l.map p)
    (hp : ∀ x, p x = false → ∃ y, x = .fin y) (prepS : Int → Nat → Option Nat → Except PyErr G) (mem : Nat → List Bool)
    (hmem : ∀ n, (mem n).length = n) (scale : ℚ) (hs1 : 1 ≤ scale) (hs2 : scale ≤ 2) (hm : 0 < m) (hN : m ≤ N) (hM : ∀ M', M = some M' → m ≤ M')
    (hS : Serves ops m N M D Ok Inv) (hprep : ∃ g, prepS m N M = .ok g ∧ Inv g ⟨[], [], none⟩) :
    ∃ b0, Filter.prepareStreaming prepS mem scale m N M = .ok b0 ∧
      ∀ l : List (GOp (Fl K)), GSt.All N M (fun st op => st.Valid m M op ∧ op.NonEmpty) ⟨[], [], none⟩ l →
        GSt.All N M Ok ⟨[], [], none⟩ (cleanOps p m N M ⟨[], [], none⟩ l) →
        ∃ b st, st = GSt.run N M ⟨[], [], none⟩ l ∧ Filter.run (Filter.Streaming.ops ops f) b0 l = .ok b ∧
          AnswersFiltered (Filter.Streaming.ops ops f) b p m D st.s st.q
            (fun c => st.Valid m M (.column c) ∧ ∀ o ∈ cleanOp p m st (.column c),
              Ok (GSt.run N M ⟨[], [], none⟩ (cleanOps p m N M ⟨[], [], none⟩ l)) o)
            (fun d => st.Valid m M (.diag d) ∧ Ok (GSt.run N M ⟨[], [], none⟩ (cleanOps p m N M ⟨[], [], none⟩ l)) (.diag d)) := by
  obtain ⟨g, hg1, hg2⟩ := hprep
  obtain ⟨b0, h1, h2⟩ := Filter.Streaming.fresh (p := p) prepS mem hmem scale hs1 hs2 hm hN hM g hg1 hg2
  refine ⟨b0, h1, fun l hv hok => ?_⟩
  obtain ⟨b, last, h3, h4, h5⟩ := Filter.Streaming.run_ok hS hf hp b0 _ none h2 l hv hok
  change GSt.run N M ⟨[], [], none⟩ _ = _ at h5
  refine ⟨b, _, rfl, h3, fun c hc => ?_, fun d hd => ?_⟩
  · obtain ⟨b', vs, last', e1, -, -, e2, e3⟩ := Filter.Streaming.calcColumn_ok hS hp b _ last h4 c hc.1 (by rw [← h5]; exact hc.2)
    exact ⟨b', vs, e1, by rw [e2]; have := hc.1.2; omega, e3⟩
  · obtain ⟨b', vs, e1, -, e2, e3⟩ := Filter.Streaming.calcDiagonal_ok hS hp b _ last h4 d hd.1 (by rw [← h5]; exact hd.2)
    exact ⟨b', vs, e1, e2, e3⟩

/-- **C37**: whatever the wrapped generator does, after any sequence of calls that succeeds (appends non-empty), the mask of the
streaming filter has one entry per subsequence of the current window, set exactly if that subsequence contains an invalid point:
it equals the mask of a batch filter on the current window. -/
theorem C37_streaming_masks {m N : Nat} {M : Option Nat} (ops : GenOps G K) (f : List (Fl K) → Int → List Bool) (p : Fl K → Bool)
    (hf : ∀ l m, f l m = l.map p) (prepS : Int → Nat → Option Nat → Except PyErr G) (mem : Nat → List Bool) (hmem : ∀ n, (mem n).length = n) (scale : ℚ)
    (hs1 : 1 ≤ scale) (hs2 : scale ≤ 2) (hm : 0 < m) (hN : m ≤ N) (hM : ∀ M', M = some M' → m ≤ M') (b0 b : Filter.Streaming G)
    (h0 : Filter.prepareStreaming prepS mem scale m N M = .ok b0) (l : List (GOp (Fl K))) (hne : ∀ op ∈ l, op.NonEmpty)
    (hr : Filter.run (Filter.Streaming.ops ops f) b0 l = .ok b) :
    ∃ s q, s = (GSt.run N M ⟨[], [], none⟩ l).s ∧ q = (GSt.run N M ⟨[], [], none⟩ l).q ∧
      b.sSub.items = (List.range (s.length + 1 - m)).map (hasInvalid p m s) ∧ b.qMask = (List.range (q.length + 1 - m)).map (hasInvalid p m q) := by
  have hinit : Filter.SMasks m N M p b0 (⟨[], [], none⟩ : GSt (Fl K)) := by
    cases hg : prepS m N M with
    | error e =>
      unfold Filter.prepareStreaming at h0
      simp only [if_neg (not_lt.mpr hs1), hg, bind, Except.bind] at h0
      cases h0
    | ok g =>
      obtain ⟨b1, h1, h2⟩ := Filter.Streaming.fresh (Inv := fun _ _ => True) (p := p) prepS mem hmem scale hs1 hs2 hm hN hM g hg trivial
      rw [h0] at h1; cases h1
      exact ⟨h2.m_eq, hm, hN, h2.sMasks, h2.qMasks⟩
  have h := Filter.Streaming.run_masks hf b0 b _ hinit l hne hr
  refine ⟨_, _, rfl, rfl, ?_, ?_⟩
  · have := h.sMasks.sub_eq
    simp only [Filter.maskOf, windows, List.map_map] at this
    exact this
  · rw [Filter.qMask_eq h.sMasks h.qMasks]
    simp only [Filter.maskOf, windows, List.map_map]
    rfl

/-- **C37**: appends never fail because of the filter: if the wrapped generator accepts the cleaned data, so does the filter. -/
theorem C37_append_accepted {m N : Nat} {M : Option Nat} (ops : GenOps G K) (f : List (Fl K) → Int → List Bool) (p : Fl K → Bool)
    (hf : ∀ l m, f l m = l.map p) (hp : ∀ x, p x = false → ∃ y, x = .fin y) (b : Filter.Streaming G) (st : GSt (Fl K))
    (h : Filter.SMasks m N M p b st) (v : List (Fl K)) (hv : v ≠ []) (g : G) (hg : ops.appendSeries b.gen ((v.map (cleanPoint p)).map .fin) = .ok g) :
    ∃ b', b.appendSeries ops f v = .ok b' ∧ b'.gen = g := by
  obtain ⟨r, h1, h2⟩ := Filter.pushMasks_ok p _ N m st.s v h.m_pos h.m_le (List.length_pos_iff.mpr hv) h.sMasks
  unfold Filter.Streaming.appendSeries
  simp only [Filter.applyValidation_ok hf, bind, Except.bind, h.m_eq, h1, Filter.zeroed_eq hp, hg, pure, Except.pure]
  exact ⟨_, rfl, rfl⟩

end

/-! ### The generators of the repository with the default validity function -/

theorem Filter.isNotFinite_pointwise {K : Type} : (∀ l m, Filter.isNotFinite (K := K) l m = l.map fun x => !x.isFinite) ∧
    ∀ x : Fl K, (!x.isFinite) = false → ∃ y, x = .fin y := by
  refine ⟨fun _ _ => rfl, fun x h => ?_⟩
  cases x <;> simp [Fl.isFinite] at h ⊢

/-- **C36** for `FilterGenerator(ZNormEuclidean(noise))`, batch: for all data (NaN and infinities included), after any valid column and
diagonal requests. -/
theorem C36_znorm_batch (mem : ZN.Mem) (hmem : mem.Ok) (noise : ℝ) (m : Nat) (hm : 0 < m) (s : List (Fl ℝ)) (q : Option (List (Fl ℝ)))
    (hs : m ≤ s.length) (hq : ∀ q', q = some q' → m ≤ q'.length) :
    ∃ b0, Filter.prepare (ZN.prepare mem noise) Filter.isNotFinite m s q = .ok b0 ∧
      ∀ l : List (GOp (Fl ℝ)), (∀ op ∈ l, (∃ c, op = .column c) ∨ ∃ d, op = .diag d) →
        GSt.All s.length (q.map (·.length)) (fun st op => st.Valid m (q.map (·.length)) op) ⟨s, q.getD s, none⟩ l →
        ∃ b, Filter.run (Filter.Batch.ops (ZN.genOps mem)) b0 l = .ok b ∧
          AnswersFiltered (Filter.Batch.ops (ZN.genOps mem)) b (fun x => !x.isFinite) m
            (fun a b => .fin (zdist m noise (seqOf a) (seqOf b) 0 0)) s (q.getD s) (fun c => c + m ≤ s.length)
            (fun d => d + m ≤ s.length ∧ -d + m ≤ (q.getD s).length) := by
  refine C36_batch _ _ Filter.isNotFinite_pointwise.1 Filter.isNotFinite_pointwise.2 _ hm s q hs hq
    (ZN.serves mem hmem noise m s.length (q.map (·.length))) ?_ ?_
  · obtain ⟨z, h1, h2, h3⟩ := ZN.prepare_ok mem hmem noise m hm (s.map (cleanPoint fun x => !x.isFinite))
      (q.map (·.map (cleanPoint fun x => !x.isFinite))) (by simpa using hs) (by
        intro q' h
        cases q with
        | none => cases h
        | some q => cases h; simpa using hq q rfl)
    refine ⟨z, ?_, ?_, ?_⟩
    · rw [← h1]; cases q <;> rfl
    · cases q <;> simpa using h2
    · cases q <;> simpa using h3
  · intro l hl hv
    exact GSt.All.safe_of_no_append l _ (by intro t e h; cases h) hl hv

/-- **C36** for `FilterGenerator(Euclidean())`, batch: diagonals for all data; columns provided no two different cleaned subsequences are
closer than 1e-15 (squared), see `C28_column_exact_partial`. -/
theorem C36_euclidean_batch_partial {K : Type} [Field K] [LinearOrder K] [IsStrictOrderedRing K] (mem : Nat → List (Fl K))
    (hmem : ∀ n, (mem n).length = n) (sq : K → K) (m : Nat) (hm : 0 < m) (s : List (Fl K)) (q : Option (List (Fl K)))
    (hs : m ≤ s.length) (hq : ∀ q', q = some q' → m ≤ q'.length)
    (hnt : Eucl.NoTiny m (s.map (cleanPoint fun x => !x.isFinite)) ((q.getD s).map (cleanPoint fun x => !x.isFinite))) :
    ∃ b0, Filter.prepare (Eucl.prepare mem) Filter.isNotFinite m s q = .ok b0 ∧
      ∀ l : List (GOp (Fl K)), (∀ op ∈ l, (∃ c, op = .column c) ∨ ∃ d, op = .diag d) →
        GSt.All s.length (q.map (·.length)) (fun st op => st.Valid m (q.map (·.length)) op) ⟨s, q.getD s, none⟩ l →
        ∃ b, Filter.run (Filter.Batch.ops (Eucl.genOps mem sq)) b0 l = .ok b ∧
          AnswersFiltered (Filter.Batch.ops (Eucl.genOps mem sq)) b (fun x => !x.isFinite) m
            (fun a b => .fin (sq (sqd m (seqOf a) (seqOf b) 0 0))) s (q.getD s) (fun c => c + m ≤ s.length)
            (fun d => d + m ≤ s.length ∧ -d + m ≤ (q.getD s).length) := by
  have hloop : ∀ l : List (GOp K), (∀ o ∈ l, (∃ c, o = .column c) ∨ ∃ d, o = .diag d) → ∀ st : GSt K, Eucl.NoTiny m st.s st.q →
      GSt.All s.length (q.map (·.length)) (fun st o => st.Valid m (q.map (·.length)) o ∧ st.Safe o) st l →
      GSt.All s.length (q.map (·.length)) (fun st op => st.Valid m (q.map (·.length)) op ∧ st.Safe op ∧
        ∀ c, op = .column c → Eucl.NoTiny m st.s st.q) st l := by
    intro l
    induction l with
    | nil => intros; trivial
    | cons op l ih =>
      intro hl st hst ha
      refine ⟨⟨ha.1.1, ha.1.2, fun _ _ => hst⟩, ih (fun o ho => hl o (by simp [ho])) _ ?_ ha.2⟩
      rcases hl op (by simp) with ⟨c, rfl⟩ | ⟨d, rfl⟩ <;> exact hst
  refine C36_batch _ _ Filter.isNotFinite_pointwise.1 Filter.isNotFinite_pointwise.2 _ hm s q hs hq
    (Eucl.serves mem hmem sq m s.length (q.map (·.length))) ?_ ?_
  · obtain ⟨z, h1, h2, h3, h4⟩ := Eucl.prepare_ok mem hmem m hm (s.map (cleanPoint fun x => !x.isFinite))
      (q.map (·.map (cleanPoint fun x => !x.isFinite))) (by simpa using hs) (by
        intro h
        cases q with
        | none => cases h
        | some q => have := hq q rfl; simp at h; subst h; simp at this; omega)
    refine ⟨z, ?_, ?_, ⟨fun fr hfr => (by rw [h3] at hfr; cases hfr), h4⟩⟩
    · rw [← h1]; cases q <;> rfl
    · cases q <;> simpa using h2
  · intro l hl hv
    exact hloop l hl _ hnt (GSt.All.safe_of_no_append l _ (by intro t e h; cases h) hl hv)

/-- Diagonals of the filtered Euclidean generator need no condition on the data. -/
theorem C36_euclidean_diagonals {K : Type} [Field K] [LinearOrder K] [IsStrictOrderedRing K] (mem : Nat → List (Fl K))
    (hmem : ∀ n, (mem n).length = n) (sq : K → K) (m : Nat) (hm : 0 < m) (s : List (Fl K)) (q : Option (List (Fl K)))
    (hs : m ≤ s.length) (hq : ∀ q', q = some q' → m ≤ q'.length) (d : Int) (hd : d + m ≤ s.length ∧ -d + m ≤ (q.getD s).length) :
    ∃ b b' vs, Filter.prepare (Eucl.prepare mem) Filter.isNotFinite m s q = .ok b ∧ b.calcDiagonal (Eucl.genOps mem sq) d = .ok (b', vs) ∧
      vs.length = diagEntries m (q.getD s).length s.length d ∧
      ∀ k, k < diagEntries m (q.getD s).length s.length d → ∃ x, vs[k]? = some x ∧
        Filtered (fun x => !x.isFinite) m (fun a b => .fin (sq (sqd m (seqOf a) (seqOf b) 0 0))) s (q.getD s) ((-d).toNat + k) (d.toNat + k) x := by
  have hqm : m ≤ (q.getD s).length := by
    cases q with
    | none => exact hs
    | some q => exact hq q rfl
  have hS := Eucl.serves mem hmem sq m s.length (q.map (·.length))
  obtain ⟨b, h1, h2⟩ := Filter.Batch.fresh (Inv := fun g st => g.Data m s.length (q.map (·.length)) st.s st.q ∧
      g.Cache (fun a b => (a - b) ^ 2) Eucl.clamp Eq m s.length st.s st.q st.last)
    Filter.isNotFinite_pointwise.1 Filter.isNotFinite_pointwise.2 (Eucl.prepare mem) hm s q hs hq (by
    obtain ⟨z, h1, h2, h3, h4⟩ := Eucl.prepare_ok mem hmem m hm (s.map (cleanPoint fun x => !x.isFinite))
      (q.map (·.map (cleanPoint fun x => !x.isFinite))) (by simpa using hs) (by
        intro h
        cases q with
        | none => cases h
        | some q => have := hq q rfl; simp at h; subst h; simp at this; omega)
    refine ⟨z, ?_, ?_, ⟨fun fr hfr => (by rw [h3] at hfr; cases hfr), h4⟩⟩
    · rw [← h1]; cases q <;> rfl
    · cases q <;> simpa using h2)
  have hval : (⟨s, q.getD s, none⟩ : GSt (Fl K)).Valid m (q.map (·.length)) (.diag d) := ⟨hd.1, hd.2, hs, hqm⟩
  obtain ⟨b', vs, e1, -, e2, e3⟩ := Filter.Batch.calcDiagonal_ok hS Filter.isNotFinite_pointwise.2 b _ none h2 d hval
    ⟨by simpa [GSt.Valid, cleanSt] using hval, trivial, fun c h => by cases h⟩
  exact ⟨b, b', vs, h1, e1, e2, e3⟩

/-- **C36** for `FilterGenerator(ZNormEuclidean(noise))`, streaming. -/
theorem C36_znorm_streaming (mem : ZN.Mem) (hmem : mem.Ok) (noise : ℝ) (scale scale' : ℚ) (h1 : 1 ≤ scale) (h2 : scale ≤ 2) (h1' : 1 ≤ scale')
    (h2' : scale' ≤ 2) (m N : Nat) (M : Option Nat) (hm : 0 < m) (hN : m ≤ N) (hM : ∀ M', M = some M' → m ≤ M') :
    ∃ b0, Filter.prepareStreaming (ZN.prepareStreaming mem noise scale') mem.bool scale m N M = .ok b0 ∧
      ∀ l : List (GOp (Fl ℝ)), GSt.All N M (fun st op => st.Valid m M op ∧ op.NonEmpty) ⟨[], [], none⟩ l →
        GSt.All N M (fun st op => st.Valid m M op ∧ st.Safe op) ⟨[], [], none⟩ (cleanOps (fun x => !x.isFinite) m N M ⟨[], [], none⟩ l) →
        ∃ b st, st = GSt.run N M ⟨[], [], none⟩ l ∧ Filter.run (Filter.Streaming.ops (ZN.genOps mem) Filter.isNotFinite) b0 l = .ok b ∧
          AnswersFiltered (Filter.Streaming.ops (ZN.genOps mem) Filter.isNotFinite) b (fun x => !x.isFinite) m
            (fun a b => .fin (zdist m noise (seqOf a) (seqOf b) 0 0)) st.s st.q
            (fun c => st.Valid m M (.column c) ∧ ∀ o ∈ cleanOp (fun x => !x.isFinite) m st (.column c),
              (fun (st : GSt ℝ) op => st.Valid m M op ∧ st.Safe op)
                (GSt.run N M ⟨[], [], none⟩ (cleanOps (fun x => !x.isFinite) m N M ⟨[], [], none⟩ l)) o)
            (fun d => st.Valid m M (.diag d)) := by
  obtain ⟨b0, e1, e2⟩ := C36_streaming Filter.isNotFinite _ Filter.isNotFinite_pointwise.1 Filter.isNotFinite_pointwise.2
    (ZN.prepareStreaming mem noise scale') mem.bool hmem.2.2 scale h1 h2 hm hN hM (ZN.serves mem hmem noise m N M) (by
      obtain ⟨z, a, b, c, d⟩ := ZN.prepareStreaming_ok mem hmem noise scale' h1' h2' m hm N M hN hM
      exact ⟨z, a, b, z.noCache m N _ _ c d⟩)
  refine ⟨b0, e1, fun l hv hok => ?_⟩
  obtain ⟨b, st, e3, e4, e5, e6⟩ := e2 l hv hok
  refine ⟨b, st, e3, e4, e5, fun d hd => e6 d ⟨hd, ?_, trivial⟩⟩
  have hw : ∃ last, GSt.run N M (⟨[], [], none⟩ : GSt ℝ) (cleanOps (fun x => !x.isFinite) m N M ⟨[], [], none⟩ l) =
      cleanSt (fun x => !x.isFinite) (GSt.run N M ⟨[], [], none⟩ l) last := by
    have : ∀ (l : List (GOp (Fl ℝ))) (st : GSt (Fl ℝ)) (last : Option (Int × Bool)), ∃ last',
        (cleanSt (fun x => !x.isFinite) st last).run N M (cleanOps (fun x => !x.isFinite) m N M st l) =
          cleanSt (fun x => !x.isFinite) (st.run N M l) last' := by
      intro l
      induction l with
      | nil => exact fun st last => ⟨last, rfl⟩
      | cons op l ih =>
        intro st last
        obtain ⟨l1, h1⟩ := Filter.cleanOp_run (p := fun x : Fl ℝ => !x.isFinite) (m := m) (N := N) (M := M) st last op
        rw [cleanOps, Filter.run_append, h1]
        exact ih _ l1
    exact this l ⟨[], [], none⟩ none
  obtain ⟨last, hw⟩ := hw
  rw [hw]
  subst e3
  simpa [GSt.Valid, cleanSt] using hd

/-! ### Concrete cases -/

/-- Batch filter around the Euclidean generator on data with a NaN and an infinity, m = 2 (squared distances): a diagonal below and one
above the main diagonal, a column of an invalid subsequence and a regular column. -/
example : (do let b ← Filter.prepare (Eucl.prepare zeroMem) Filter.isNotFinite 2 [.fin 1, .fin 2, .nan, .fin 4, .fin 6] (some [.fin 0, .fin 2, .fin 3, .pinf])
              let (b, d1) ← b.calcDiagonal (Eucl.genOps zeroMem id) (-1)
              let (b, d2) ← b.calcDiagonal (Eucl.genOps zeroMem id) 3
              let (b, c1) ← b.calcColumn (Eucl.genOps zeroMem id) 1
              let (_, c3) ← b.calcColumn (Eucl.genOps zeroMem id) 3
              return [d1, d2, c1, c3]) =
    .ok [[.fin 2, .pinf], [.fin 32], [.pinf, .pinf, .pinf], [.fin 32, .fin 13, .pinf]] := by
  decide +kernel

/-- The hypotheses of `C36_euclidean_batch_partial` on these data. -/
example : Eucl.NoTiny 2 (([.fin 1, .fin 2, .nan, .fin 4, .fin 6] : List (Fl ℚ)).map (cleanPoint fun x => !x.isFinite))
    (([.fin 0, .fin 2, .fin 3, .pinf] : List (Fl ℚ)).map (cleanPoint fun x => !x.isFinite)) := by
  have : ∀ i < 3, ∀ j < 4, sqd 2 (seqOf ([1, 2, 0, 4, 6] : List ℚ)) (seqOf [0, 2, 3, 0]) i j = 0 ∨
      Eucl.eps ≤ sqd 2 (seqOf ([1, 2, 0, 4, 6] : List ℚ)) (seqOf [0, 2, 3, 0]) i j := by decide +kernel
  intro i j hi hj
  exact this i (by simp at hi; omega) j (by simp at hj; omega)

/-- Two different chunkings of the same stream (window 4, m = 2), with diagonals of the z-normalised generator in between: the hypotheses of
`C36_znorm_streaming` hold. -/
example : GSt.All 4 none (fun (st : GSt (Fl ℝ)) op => st.Valid 2 none op ∧ op.NonEmpty) ⟨[], [], none⟩
      [.series [.fin 1], .series [.nan, .fin 2, .fin 3, .fin 5], .column 1, .diag 1, .series [.pinf]] ∧
    GSt.All 4 none (fun (st : GSt ℝ) op => st.Valid 2 none op ∧ st.Safe op) ⟨[], [], none⟩
      (cleanOps (fun x => !x.isFinite) 2 4 none ⟨[], [], none⟩
        [.series [.fin 1], .series [.nan, .fin 2, .fin 3, .fin 5], .column 1, .diag 1, .series [.pinf]]) := by
  constructor
  · simp [GSt.All, GSt.Valid, GSt.step, GOp.NonEmpty, lastN]
  · simp [cleanOps, cleanOp, GSt.All, GSt.Valid, GSt.Safe, GSt.step, lastN, hasInvalid, Fl.isFinite, cleanPoint]

/-- A wrapped generator that accepts everything and calculates nothing. -/
def nullOps : GenOps Unit ℚ :=
  { calcDiagonal := fun _ _ => .ok ((), []), calcColumn := fun _ _ => .ok ((), []), appendSeries := fun _ _ => .ok (), appendQuery := fun _ _ => .ok () }

/-- Boolean memory filled with `true`. -/
def trueMem (n : Nat) : List Bool := List.replicate n true

/-- Series mask after appending the given chunks (window `N`). -/
def maskAfter (m N : Nat) (chunks : List (List (Fl ℚ))) : Except PyErr (List Bool) := do
  let b ← Filter.prepareStreaming (fun _ _ _ => .ok ()) trueMem 2 m N none
  let b ← Filter.run (Filter.Streaming.ops nullOps Filter.isNotFinite) b (chunks.map .series)
  return b.sSub.items

/-- the same stream in three chunkings, the window of 5 wrapping around -/
example : maskAfter 3 5 [[.fin 1, .nan, .fin 1, .fin 1, .fin 1, .fin 1, .pinf]] = .ok [false, false, true] ∧
    maskAfter 3 5 [[.fin 1], [.nan], [.fin 1, .fin 1], [.fin 1, .fin 1], [.pinf]] = .ok [false, false, true] ∧
    maskAfter 3 5 [[.fin 1, .nan, .fin 1], [.fin 1, .fin 1, .fin 1, .pinf]] = .ok [false, false, true] := by
  decide +kernel

/-- **C37 needs non-empty appends**: with m = 1 an empty append pushes the whole mask again (`self.invalid_series[-0:]`), so that the mask no
longer matches the window; with m = 2 it raises `ValueError`. -/
theorem C37_empty_append : maskAfter 1 3 [[.nan, .fin 1]] = .ok [true, false] ∧ maskAfter 1 3 [[.nan, .fin 1], []] = .ok [false, true, false] ∧
    maskAfter 2 3 [[.nan, .fin 1], []] = .error .valueError := by
  decide +kernel

/-- `C35_mask`. -/
example := C35_mask [false, true, false, false, true] 2 (by decide) (by decide)

/-- `C36_znorm_batch`, which is `C36_batch` for the z-normalised generator: series with a NaN, query with an infinity. -/
example := C36_znorm_batch ZN.zeroMem ZN.zeroMem_ok (1 / 10) 2 (by decide) [.fin 1, .fin 2, .nan, .fin 4, .fin 6] (some [.fin 0, .fin 2, .fin 3, .pinf]) (by simp) (by simp)

/-- `C36_znorm_streaming`, which is `C36_streaming` for the z-normalised generator. -/
example := C36_znorm_streaming ZN.zeroMem ZN.zeroMem_ok (1 / 10) (3 / 2) 2 (by norm_num) (by norm_num) (by norm_num) (by norm_num) 2 4 (some 3) (by decide) (by decide) (by simp)

/-- `C36_euclidean_diagonals`: squared distances. -/
example := C36_euclidean_diagonals (K := ℚ) zeroMem (fun n => by simp [zeroMem]) id 2 (by decide) [.fin 1, .fin 2, .nan, .fin 4, .fin 6] (some [.fin 0, .fin 2, .fin 3, .pinf]) (by simp)
  (by simp) (-1) (by simp)

/-- `C37_streaming_masks` with a generator that accepts everything. -/
example (b0 b : Filter.Streaming Unit) (h0 : Filter.prepareStreaming (fun _ _ _ => .ok ()) trueMem 2 3 5 none = .ok b0)
    (h : Filter.run (Filter.Streaming.ops nullOps Filter.isNotFinite) b0 [.series [.fin 1, .nan], .series [.fin 1, .fin 1, .fin 1, .fin 1, .pinf]] = .ok b) :=
  C37_streaming_masks nullOps Filter.isNotFinite (fun x => !x.isFinite) Filter.isNotFinite_pointwise.1 (fun _ _ _ => .ok ()) trueMem (fun n => by simp [trueMem]) 2 (by norm_num) (by norm_num)
    (by decide) (by decide) (by simp) b0 b h0 [.series [.fin 1, .nan], .series [.fin 1, .fin 1, .fin 1, .fin 1, .pinf]] (by simp [GOp.NonEmpty]) h

/-- `C37_append_accepted`: any streaming filter around a generator that accepts everything, and a NaN. -/
example (m N : Nat) (M : Option Nat) (b : Filter.Streaming Unit) (st : GSt (Fl ℚ)) (h : Filter.SMasks m N M (fun x => !x.isFinite) b st) :
    ∃ b', b.appendSeries nullOps Filter.isNotFinite [.fin 1, .nan] = .ok b' ∧ b'.gen = () :=
  C37_append_accepted nullOps Filter.isNotFinite (fun x => !x.isFinite) Filter.isNotFinite_pointwise.1 Filter.isNotFinite_pointwise.2 b st h [.fin 1, .nan] (by simp) () rfl

end Verif
