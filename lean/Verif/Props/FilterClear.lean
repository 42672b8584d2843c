import Verif.Props.Filter
import Verif.Props.NearFeed

/-!
# C106: a filter that marks nothing changes nothing
-/

namespace Verif
open Spec
namespace Filter
variable {G K : Type}

/-- One call: the new state and the distances returned (none for appends). -/
def reply (ops : GenOps G K) (g : G) : GOp (Fl K) → Except PyErr (G × List (Fl K))
  | .series v => (ops.appendSeries g v).map fun g => (g, [])
  | .query v => (ops.appendQuery g v).map fun g => (g, [])
  | .column c => ops.calcColumn g c
  | .diag d => ops.calcDiagonal g d

/-- A sequence of calls: the last state and all that was returned; stops at the first call that raises. -/
def replies (ops : GenOps G K) (g : G) : List (GOp (Fl K)) → Except PyErr (G × List (List (Fl K)))
  | [] => .ok (g, [])
  | op :: l => do
      let (g, vs) ← reply ops g op
      let (g, vss) ← replies ops g l
      return (g, vs :: vss)

/-- The number of distances to return. -/
def expected (m : Nat) (st : GSt (Fl K)) : GOp (Fl K) → Nat
  | .column _ => st.q.length + 1 - m
  | .diag d => diagEntries m st.q.length st.s.length d
  | _ => 0

/-- Whenever the generator returns distances, their number is right. -/
def AllSized (ops : GenOps G K) (m N : Nat) (M : Option Nat) (g : G) (st : GSt (Fl K)) : List (GOp (Fl K)) → Prop
  | [] => True
  | op :: l => ∀ g' vs, reply ops g op = .ok (g', vs) → vs.length = expected m st op ∧ AllSized ops m N M g' (st.step N M op) l

/-- The filter marks none of the points appended. -/
def Clear (p : Fl K → Bool) : GOp (Fl K) → Prop
  | .series v => ∀ x ∈ v, p x = false
  | .query v => ∀ x ∈ v, p x = false
  | _ => True

variable {m N : Nat} {M : Option Nat} {p : Fl K → Bool} {f : List (Fl K) → Int → List Bool}

theorem npMaskFill_clear {α : Type} (a : List α) (mask : List Bool) (x : α) (h : a.length = mask.length) (hb : ∀ b ∈ mask, b = false) :
    npMaskFill a mask x = .ok a := by
  unfold npMaskFill
  rw [if_pos h]
  congr 1
  induction a generalizing mask with
  | nil => rfl
  | cons y a ih =>
    cases mask with
    | nil => simp at h
    | cons b mask =>
      rw [List.zipWith_cons_cons, ih mask (by simpa using h) (fun b hb' => hb b (List.mem_cons_of_mem _ hb')), hb b (by simp)]
      rfl

theorem maskOf_clear (l : List (Fl K)) (h : ∀ x ∈ l, p x = false) : ∀ b ∈ maskOf p m l, b = false := by
  intro b hb
  obtain ⟨i, hi⟩ := List.getElem?_of_mem hb
  rw [maskOf_getElem?] at hi
  split at hi
  · cases hi
    unfold hasInvalid
    rw [List.any_eq_false]
    intro x hx
    rw [h x (List.mem_of_mem_drop (List.mem_of_mem_take hx))]
    simp
  · cases hi

theorem maskDiagonal_clear (s q : List (Fl K)) (hs : ∀ x ∈ s, p x = false) (hq : ∀ x ∈ q, p x = false) (d : Int)
    (hv : d + m ≤ s.length ∧ -d + m ≤ q.length ∧ m ≤ s.length ∧ m ≤ q.length) (V : List (Fl K)) (hV : V.length = diagEntries m q.length s.length d) :
    maskDiagonal (maskOf p m s) (maskOf p m q) d V = .ok V := by
  obtain ⟨v1, v2, v3, v4⟩ := hv
  have hLs : d.toNat + V.length ≤ s.length + 1 - m := by rw [hV, diagEntries]; omega
  have hLq : (-d).toNat + V.length ≤ q.length + 1 - m := by rw [hV, diagEntries]; omega
  have key : ∀ (l : List (Fl K)) (hl : ∀ x ∈ l, p x = false) (i : Nat), i + V.length ≤ l.length + 1 - m →
      npMaskFill V (((maskOf p m l).drop i).take V.length) .pinf = .ok V := by
    intro l hl i hi
    refine npMaskFill_clear _ _ _ ?_ fun b hb => maskOf_clear l hl b (List.mem_of_mem_drop (List.mem_of_mem_take hb))
    rw [List.length_take, List.length_drop, maskOf_length]; omega
  unfold maskDiagonal
  by_cases hd : d ≥ 0
  · obtain ⟨n, rfl⟩ : ∃ n : Nat, d = n := ⟨d.toNat, by omega⟩
    rw [if_pos hd, pySlice_nat_add, pyTo_nat, key s hs n (by omega)]
    exact key q hq 0 (by omega)
  · obtain ⟨n, rfl⟩ : ∃ n : Nat, d = -(n : Int) := ⟨(-d).toNat, by omega⟩
    rw [if_neg hd, neg_neg, pySlice_nat_add, pyTo_nat]
    have := key s hs 0 (by omega)
    rw [List.drop_zero] at this
    rw [this]
    exact key q hq n (by omega)

variable [Zero K]

theorem zeroed_clear (v : List (Fl K)) (h : ∀ x ∈ v, p x = false) : zeroed v (v.map p) = v := by
  unfold zeroed
  induction v with
  | nil => rfl
  | cons x v ih =>
    rw [List.map_cons, List.zipWith_cons_cons, ih fun y hy => h y (List.mem_cons_of_mem _ hy), h x (by simp)]
    rfl

variable {ops : GenOps G K}

/-- One call of a streaming filter whose points are all unmarked. -/
theorem Streaming.reply_clear (hf : ∀ l m, f l m = l.map p) (b : Streaming G) (st : GSt (Fl K)) (h : SMasks m N M p b st)
    (hs : ∀ x ∈ st.s, p x = false) (hq : ∀ x ∈ st.q, p x = false) (op : GOp (Fl K)) (hv : st.Valid m M op) (hne : op.NonEmpty) (hc : Clear p op)
    (hsz : ∀ g' vs, reply ops b.gen op = .ok (g', vs) → vs.length = expected m st op) :
    (reply (Streaming.ops ops f) b op).map (fun r => (r.1.gen, r.2)) = reply ops b.gen op := by
  cases op with
  | series v =>
    obtain ⟨r, h1, -⟩ := pushMasks_ok p _ N m st.s v h.m_pos h.m_le (List.length_pos_iff.mpr hne) h.sMasks
    show Except.map _ (Except.map _ (b.appendSeries ops f v)) = _
    unfold Streaming.appendSeries
    simp only [applyValidation_ok hf, bind, Except.bind, h.m_eq, h1, zeroed_clear v hc, reply]
    cases ops.appendSeries b.gen v <;> rfl
  | query v =>
    cases M with
    | none => exact absurd rfl hv
    | some M =>
      obtain ⟨hM, rq, hr, hq⟩ := h.qMasks
      obtain ⟨r, h1, -⟩ := pushMasks_ok p _ M m st.q v h.m_pos hM (List.length_pos_iff.mpr hne) hq
      show Except.map _ (Except.map _ (b.appendQuery ops f v)) = _
      unfold Streaming.appendQuery
      simp only [hr, applyValidation_ok hf, bind, Except.bind, h.m_eq, h1, zeroed_clear v hc, reply]
      cases ops.appendQuery b.gen v <;> rfl
  | column c =>
    obtain ⟨v1, v2⟩ := hv
    have hm := h.m_pos
    have hget : pyGet b.sSub.items (c : Int) = .ok false := by
      have hi : hasInvalid p m st.s c = false := maskOf_clear (m := m) st.s hs _ (List.mem_of_getElem? (i := c) (by rw [maskOf_getElem?, if_pos (by omega)]))
      rw [pyGet_nat_ok, h.sMasks.sub_eq, maskOf_getElem?, if_pos (by omega), hi]
    show Except.map _ (b.calcColumn ops c) = ops.calcColumn b.gen c
    unfold Streaming.calcColumn
    simp only [hget, bind, Except.bind, Bool.false_eq_true, if_false, qMask_eq h.sMasks h.qMasks]
    cases e : ops.calcColumn b.gen c with
    | error e => rfl
    | ok r =>
      have := hsz r.1 r.2 e
      dsimp only
      rw [npMaskFill_clear r.2 (maskOf p m st.q) .pinf (by rw [this, maskOf_length]; rfl) (maskOf_clear st.q hq)]
      rfl
  | diag d =>
    show Except.map _ (b.calcDiagonal ops d) = ops.calcDiagonal b.gen d
    unfold Streaming.calcDiagonal
    simp only [bind, Except.bind, qMask_eq h.sMasks h.qMasks, h.sMasks.sub_eq]
    cases e : ops.calcDiagonal b.gen d with
    | error e => rfl
    | ok r =>
      have := hsz r.1 r.2 e
      dsimp only
      rw [maskDiagonal_clear st.s st.q hs hq d hv r.2 this]
      rfl

omit [Zero K] in
theorem reply_exec (ops : GenOps G K) (g : G) (op : GOp (Fl K)) : exec ops g op = (reply ops g op).map Prod.fst := by
  cases op with
  | series v => simp only [exec, reply]; cases ops.appendSeries g v <;> rfl
  | query v => simp only [exec, reply]; cases ops.appendQuery g v <;> rfl
  | column c => rfl
  | diag d => rfl

/-- A whole sequence of calls of a streaming filter. -/
theorem Streaming.replies_clear (hf : ∀ l m, f l m = l.map p) : ∀ (l : List (GOp (Fl K))) (b : Streaming G) (st : GSt (Fl K)), SMasks m N M p b st →
    (∀ x ∈ st.s, p x = false) → (∀ x ∈ st.q, p x = false) → GSt.All N M (fun st op => st.Valid m M op ∧ op.NonEmpty) st l → (∀ op ∈ l, Clear p op) →
    AllSized ops m N M b.gen st l →
    (replies (Streaming.ops ops f) b l).map (fun r => (r.1.gen, r.2)) = replies ops b.gen l
  | [], b, st, _, _, _, _, _, _ => rfl
  | op :: l, b, st, h, hs, hq, hv, hc, hsz => by
    have h1 := Streaming.reply_clear (ops := ops) hf b st h hs hq op hv.1.1 hv.1.2 (hc op (by simp)) (fun g' vs e => (hsz g' vs e).1)
    rw [replies, replies, ← h1]
    cases e : reply (Streaming.ops ops f) b op with
    | error e => rfl
    | ok r =>
      have h2 : SMasks m N M p r.1 (st.step N M op) := Streaming.exec_masks hf b r.1 st h op hv.1.2 (by rw [reply_exec, e]; rfl)
      have hs' : (∀ x ∈ (st.step N M op).s, p x = false) ∧ ∀ x ∈ (st.step N M op).q, p x = false := by
        have hlast : ∀ (n : Nat) (a v : List (Fl K)), (∀ x ∈ a, p x = false) → (∀ x ∈ v, p x = false) → ∀ x ∈ lastN n (a ++ v), p x = false := by
          intro n a v ha hb x hx
          have : x ∈ a ++ v := List.mem_of_mem_drop (by simpa [lastN] using hx)
          exact (List.mem_append.mp this).elim (ha x) (hb x)
        have hcl := hc op (by simp)
        cases op with
        | series v =>
          by_cases h0 : v.length = 0
          · simp only [GSt.step, h0, if_true]
            exact ⟨hs, hq⟩
          · simp only [GSt.step, h0, if_false]
            cases M with
            | none => exact ⟨hlast _ _ _ hs hcl, hlast _ _ _ hs hcl⟩
            | some M => exact ⟨hlast _ _ _ hs hcl, hq⟩
        | query v =>
          cases M with
          | none => exact ⟨hs, hq⟩
          | some M =>
            by_cases h0 : v.length = 0
            · simp only [GSt.step, h0, if_true]
              exact ⟨hs, hq⟩
            · simp only [GSt.step, h0, if_false]
              exact ⟨hs, hlast _ _ _ hq hcl⟩
        | column c => exact ⟨hs, hq⟩
        | diag d => exact ⟨hs, hq⟩
      have h3 := (hsz r.1.gen r.2 (by rw [← h1, e]; rfl)).2
      have ih := Streaming.replies_clear hf l r.1 _ h2 hs'.1 hs'.2 hv.2 (fun o ho => hc o (List.mem_cons_of_mem _ ho)) h3
      simp only [Except.map, bind, Except.bind] at ih ⊢
      rw [← ih]
      cases replies (Streaming.ops ops f) r.1 l <;> rfl

omit [Zero K] in
/-- A whole sequence of calls of a batch filter. -/
theorem Batch.replies_clear (s q : List (Fl K)) (hs : ∀ x ∈ s, p x = false) (hq : ∀ x ∈ q, p x = false) (hm : 0 < m) :
    ∀ (l : List (GOp (Fl K))) (b : Batch G) (st : GSt (Fl K)), b.sMask = maskOf p m s → b.qMask = maskOf p m q → st.s = s → st.q = q →
    (∀ op ∈ l, (∃ c, op = .column c) ∨ ∃ d, op = .diag d) → GSt.All N M (fun st op => st.Valid m M op) st l →
    AllSized ops m N M b.gen st l →
    (replies (Batch.ops ops) b l).map (fun r => (r.1.gen, r.2)) = replies ops b.gen l
  | [], b, st, _, _, _, _, _, _, _ => rfl
  | op :: l, b, st, h1, h2, h3, h4, hl, hv, hsz => by
    have key : (∃ b', b'.sMask = maskOf p m s ∧ b'.qMask = maskOf p m q ∧ ∃ vs, reply (Batch.ops ops) b op = .ok (b', vs) ∧ reply ops b.gen op = .ok (b'.gen, vs)) ∨
        ∃ e, reply (Batch.ops ops) b op = .error e ∧ reply ops b.gen op = .error e := by
      rcases hl op (by simp) with ⟨c, rfl⟩ | ⟨d, rfl⟩
      · obtain ⟨v1, v2⟩ := hv.1
        have hget : pyGet b.sMask (c : Int) = .ok false := by
          rw [h3] at v1
          have hi : hasInvalid p m s c = false := maskOf_clear (m := m) s hs _ (List.mem_of_getElem? (i := c) (by rw [maskOf_getElem?, if_pos (by omega)]))
          rw [pyGet_nat_ok, h1, maskOf_getElem?, if_pos (by omega), hi]
        have e0 : reply (Batch.ops ops) b (.column c) = b.calcColumn ops c := rfl
        rw [e0]
        unfold Batch.calcColumn
        simp only [hget, bind, Except.bind, Bool.false_eq_true, if_false, reply]
        cases e : ops.calcColumn b.gen c with
        | error x => exact .inr ⟨x, rfl, rfl⟩
        | ok r =>
          have := (hsz r.1 r.2 e).1
          dsimp only
          rw [npMaskFill_clear r.2 b.qMask .pinf (by rw [h2, this, maskOf_length, ← h4]; rfl) (by rw [h2]; exact maskOf_clear q hq)]
          exact .inl ⟨{ b with gen := r.1 }, h1, h2, r.2, rfl, rfl⟩
      · have e0 : reply (Batch.ops ops) b (.diag d) = b.calcDiagonal ops d := rfl
        rw [e0]
        unfold Batch.calcDiagonal
        simp only [bind, Except.bind, reply]
        cases e : ops.calcDiagonal b.gen d with
        | error x => exact .inr ⟨x, rfl, rfl⟩
        | ok r =>
          have := (hsz r.1 r.2 e).1
          have hv1 := hv.1
          simp only [GSt.Valid, h3, h4] at hv1
          have h5 := maskDiagonal_clear s q hs hq d hv1 r.2 (by rw [this, ← h3, ← h4]; rfl)
          rw [← h1, ← h2] at h5
          dsimp only
          rw [h5]
          exact .inl ⟨{ b with gen := r.1 }, h1, h2, r.2, rfl, rfl⟩
    have hw : (st.step N M op).s = s ∧ (st.step N M op).q = q := by
      rcases hl op (by simp) with ⟨c, rfl⟩ | ⟨d, rfl⟩ <;> exact ⟨h3, h4⟩
    rw [replies, replies]
    rcases key with ⟨b', k1, k2, vs, e1, e2⟩ | ⟨e, e1, e2⟩
    · have ih := Batch.replies_clear s q hs hq hm l b' _ k1 k2 hw.1 hw.2 (fun o ho => hl o (List.mem_cons_of_mem _ ho)) hv.2 (hsz _ _ e2).2
      rw [e1, e2]
      simp only [Except.map, bind, Except.bind] at ih ⊢
      rw [← ih]
      cases replies (Batch.ops ops) b' l <;> rfl
    · rw [e1, e2]; rfl

/-- **C106, streaming.** A `FilterGenerator` around any generator, to which only points are appended that its filter does not mark: every sequence of
non-empty appends and of requests inside the windows has the same outcome as with the generator alone: the same distances, the same exceptions,
and the wrapped generator ends in the same state. (`AllSized`: columns and diagonals of the wrapped generator have as many entries as the distance matrix.) -/
theorem _root_.Verif.C106_streaming (hf : ∀ l m, f l m = l.map p) (prepS : Int → Nat → Option Nat → Except PyErr G) (mem : Nat → List Bool)
    (hmem : ∀ n, (mem n).length = n) (scale : ℚ) (hs1 : 1 ≤ scale) (hs2 : scale ≤ 2) (hm : 0 < m) (hN : m ≤ N) (hM : ∀ M', M = some M' → m ≤ M')
    (l : List (GOp (Fl K))) (hv : GSt.All N M (fun st op => st.Valid m M op ∧ op.NonEmpty) ⟨[], [], none⟩ l) (hc : ∀ op ∈ l, Clear p op)
    (hsz : ∀ g, prepS m N M = .ok g → AllSized ops m N M g ⟨[], [], none⟩ l) :
    (do let b ← prepareStreaming prepS mem scale m N M
        replies (Streaming.ops ops f) b l).map (fun r : Streaming G × List (List (Fl K)) => (r.1.gen, r.2)) = (do let g ← prepS m N M; replies ops g l) := by
  obtain ⟨a, ha1, ha2⟩ := emptyMasks_ok p mem hmem scale hs1 hs2 m N hm hN
  have hq : ∃ r, emptyQueryMasks mem scale m M = .ok r ∧ QMasks r m M p ([] : List (Fl K)) [] := by
    cases M with
    | none => exact ⟨none, rfl, rfl, rfl⟩
    | some M =>
      obtain ⟨r, hr1, hr2⟩ := emptyMasks_ok p mem hmem scale hs1 hs2 m M hm (hM M rfl)
      exact ⟨some r, by rw [emptyQueryMasks, hr1]; rfl, hM M rfl, r, rfl, hr2⟩
  obtain ⟨r, hr1, hr2⟩ := hq
  unfold prepareStreaming
  rw [if_neg (by exact not_lt.mpr hs1)]
  cases e : prepS m N M with
  | error e => rfl
  | ok g =>
    have := Streaming.replies_clear (ops := ops) (f := f) hf l ⟨g, m, a.1, a.2, r⟩ ⟨[], [], none⟩ ⟨rfl, hm, hN, ha2, hr2⟩ (by simp) (by simp) hv hc (hsz g e)
    simp only [bind, Except.bind, ha1, hr1, pure, Except.pure]
    exact this

/-- **C106, batch.** The same for a `FilterGenerator` that is given all data at once. -/
theorem _root_.Verif.C106_batch (hf : ∀ l m, f l m = l.map p) (prep : Int → List (Fl K) → Option (List (Fl K)) → Except PyErr G) (hm : 0 < m)
    (s : List (Fl K)) (q : Option (List (Fl K))) (hs : m ≤ s.length) (hq : ∀ q', q = some q' → m ≤ q'.length)
    (hcs : ∀ x ∈ s, p x = false) (hcq : ∀ q', q = some q' → ∀ x ∈ q', p x = false)
    (l : List (GOp (Fl K))) (hl : ∀ op ∈ l, (∃ c, op = .column c) ∨ ∃ d, op = .diag d)
    (hv : GSt.All s.length (q.map (·.length)) (fun st op => st.Valid m (q.map (·.length)) op) ⟨s, q.getD s, none⟩ l)
    (hsz : ∀ g, prep m s q = .ok g → AllSized ops m s.length (q.map (·.length)) g ⟨s, q.getD s, none⟩ l) :
    (do let b ← prepare prep f m s q
        replies (Batch.ops ops) b l).map (fun r : Batch G × List (List (Fl K)) => (r.1.gen, r.2)) = (do let g ← prep m s q; replies ops g l) := by
  have hcd : ∀ x : List (Fl K), m ≤ x.length → (∀ y ∈ x, p y = false) → correctData x m f = .ok (x, maskOf p m x) := by
    intro x h1 h2
    unfold correctData
    simp only [applyValidation_ok hf, bind, Except.bind, pure, Except.pure]
    rw [invalidSubseq_ok _ m hm (by rw [List.length_map]; omega), maskOf_map]
    simp only [zeroed_clear x h2]
  have hcq' : ∀ x ∈ q.getD s, p x = false := by
    cases q with
    | none => exact hcs
    | some q => exact hcq q rfl
  have hpq : prepareQuery m s (maskOf p m s) f q = .ok (q, maskOf p m (q.getD s), ((q.getD s).length : Int) - m + 1) := by
    cases q with
    | none => rfl
    | some q => simp only [prepareQuery, hcd q (hq q rfl) (hcq q rfl), bind, Except.bind, pure, Except.pure]; rfl
  unfold prepare
  simp only [hcd s hs hcs, hpq, bind, Except.bind, pure, Except.pure]
  cases e : prep m s q with
  | error e => rfl
  | ok g =>
    exact Batch.replies_clear (ops := ops) s (q.getD s) hcs hcq' hm l ⟨g, ((q.getD s).length : Int) - m + 1, maskOf p m s, maskOf p m (q.getD s)⟩ _ rfl rfl rfl rfl hl hv
      (hsz g e)

/-! ## The generators of the repository -/

/-- A call with finite points. -/
def finOp : GOp K → GOp (Fl K)
  | .series v => .series (v.map .fin)
  | .query v => .query (v.map .fin)
  | .column c => .column c
  | .diag d => .diag d

/-- Windows of finite points. -/
def finSt (st : GSt K) : GSt (Fl K) := ⟨st.s.map .fin, st.q.map .fin, st.last⟩

omit [Zero K] in
theorem finSt_step (st : GSt K) (op : GOp K) : finSt (st.step N M op) = (finSt st).step N M (finOp op) := by
  have hl : ∀ (n : Nat) (a b : List K), (lastN n (a ++ b)).map Fl.fin = lastN n (a.map Fl.fin ++ b.map Fl.fin) := by
    intro n a b; simp [lastN, List.map_drop]
  cases op with
  | series v =>
    by_cases h0 : v.length = 0
    · simp only [GSt.step, finOp, List.length_map, h0, if_true]
    · simp only [GSt.step, finOp, finSt, List.length_map, h0, if_false]
      cases M <;> simp only [hl]
  | query v =>
    cases M with
    | none => rfl
    | some M =>
      by_cases h0 : v.length = 0
      · simp only [GSt.step, finOp, List.length_map, h0, if_true]
      · simp only [GSt.step, finOp, finSt, List.length_map, h0, if_false, hl]
  | column c => rfl
  | diag d => rfl

omit [Zero K] in
theorem finSt_valid (st : GSt K) (op : GOp K) : (finSt st).Valid m M (finOp op) ↔ st.Valid m M op := by
  cases op <;> simp [GSt.Valid, finSt, finOp]

omit [Zero K] in
theorem finSt_all {P : GSt K → GOp K → Prop} {Q : GSt (Fl K) → GOp (Fl K) → Prop} (h : ∀ st op, P st op → Q (finSt st) (finOp op)) :
    ∀ (l : List (GOp K)) (st : GSt K), GSt.All N M P st l → GSt.All N M Q (finSt st) (l.map finOp)
  | [], _, _ => trivial
  | op :: l, st, ha => ⟨h st op ha.1, by rw [← finSt_step]; exact finSt_all h l _ ha.2⟩

omit [Zero K] in
/-- Generators that give the distances asked for give the right number of them. -/
theorem allSized_of_near {D : List K → List K → Fl K} {Rel : Fl K → Fl K → Prop} {Ok : GSt K → GOp K → Prop} {Inv : G → GSt K → Prop}
    (H : NearServes .fin ops m N M D Rel Ok Inv) : ∀ (l : List (GOp K)) (g : G) (st : GSt K), Inv g st → GSt.All N M Ok st l →
    AllSized ops m N M g (finSt st) (l.map finOp)
  | [], _, _, _, _ => trivial
  | op :: l, g, st, hi, ha => by
    intro g' vs e
    rw [← finSt_step]
    cases op with
    | series v =>
      obtain ⟨g1, e1, e2⟩ := H.series g st v hi ha.1
      rw [finOp, reply, e1] at e
      cases e
      exact ⟨rfl, allSized_of_near H l _ _ e2 ha.2⟩
    | query v =>
      obtain ⟨g1, e1, e2⟩ := H.query g st v hi ha.1
      rw [finOp, reply, e1] at e
      cases e
      exact ⟨rfl, allSized_of_near H l _ _ e2 ha.2⟩
    | column c =>
      obtain ⟨g1, vs1, e1, e2, -, e3⟩ := H.column g st c hi ha.1
      rw [finOp, reply, e1] at e
      cases e
      exact ⟨by rw [e2, finOp, expected, finSt, List.length_map], allSized_of_near H l _ _ e3 ha.2⟩
    | diag d =>
      obtain ⟨g1, e1, e2⟩ := H.diag g st d hi ha.1
      rw [finOp, reply, e1] at e
      cases e
      exact ⟨by rw [List.length_map, List.length_range]; simp [finOp, expected, finSt], allSized_of_near H l _ _ e2 ha.2⟩

/-- **C106, streaming, generators of the repository.** `FilterGenerator` with its default filter around a Euclidean or a z-normalised generator, finite
data of any kind: the distances returned for every sequence of calls are those of the generator alone. -/
theorem _root_.Verif.C106_repository_streaming (memE : Nat → List (Fl ℝ)) (hmemE : ∀ n, (memE n).length = n) (memZ : ZN.Mem) (hmemZ : memZ.Ok)
    (mem : Nat → List Bool) (hmem : ∀ n, (mem n).length = n) (scale : ℚ) (hs1 : 1 ≤ scale) (hs2 : scale ≤ 2) (m N : Nat) (M : Option Nat) (hm : 0 < m)
    (hN : m ≤ N) (hM : ∀ M', M = some M' → m ≤ M') (k : GenKind) (hsc : k.ScaleOk) (l : List (GOp ℝ))
    (hv : GSt.All N M (fun st op => st.Valid m M op ∧ st.Safe op ∧ op.NonEmpty) ⟨[], [], none⟩ l) :
    (do let b ← prepareStreaming (fun m N M => k.streaming memE memZ m N (M.map fun M : Nat => (M : Int))) mem scale m N M
        replies (Streaming.ops (GenKind.ops memE memZ) isNotFinite) b (l.map finOp)).map
          (fun r : Streaming (ColCache ℝ ⊕ ZN) × List (List (Fl ℝ)) => (r.1.gen, r.2)) =
      (do let g ← k.streaming memE memZ m N (M.map fun M : Nat => (M : Int)); replies (GenKind.ops memE memZ) g (l.map finOp)) := by
  have hne : ∀ op : GOp ℝ, op.NonEmpty → (finOp op).NonEmpty := by
    intro op h
    cases op with
    | series v => exact fun h' => h (List.map_eq_nil_iff.mp h')
    | query v => exact fun h' => h (List.map_eq_nil_iff.mp h')
    | column c => trivial
    | diag d => trivial
  refine C106_streaming isNotFinite_pointwise.1 _ mem hmem scale hs1 hs2 hm hN hM (l.map finOp)
    (finSt_all (fun st op h => ⟨(finSt_valid st op).mpr h.1, hne op h.2.2⟩) l ⟨[], [], none⟩ hv) ?_ fun g hg => ?_
  · intro op ho
    obtain ⟨o, -, rfl⟩ := List.mem_map.mp ho
    cases o <;> simp [finOp, Clear, Fl.isFinite]
  · obtain ⟨x, hx1, hx2⟩ := GenKind.near_streaming memE hmemE memZ hmemZ m N M hm hN hM k hsc
    rw [hx1] at hg
    cases hg
    refine allSized_of_near (GenKind.nearServes memE hmemE memZ hmemZ m N M k) l _ ⟨[], [], none⟩ hx2 ?_
    have : ∀ (l : List (GOp ℝ)) (st : GSt ℝ), GSt.All N M (fun st op => st.Valid m M op ∧ st.Safe op ∧ op.NonEmpty) st l →
        GSt.All N M (fun st op => st.Valid m M op ∧ st.Safe op) st l := by
      intro l
      induction l with
      | nil => exact fun _ _ => trivial
      | cons op l ih => exact fun st h => ⟨⟨h.1.1, h.1.2.1⟩, ih _ h.2⟩
    exact this l _ hv

/-- **C106, batch, generators of the repository.** -/
theorem _root_.Verif.C106_repository_batch (memE : Nat → List (Fl ℝ)) (hmemE : ∀ n, (memE n).length = n) (memZ : ZN.Mem) (hmemZ : memZ.Ok)
    (m : Nat) (hm : 0 < m) (k : GenKind) (s : List ℝ) (q : Option (List ℝ)) (hs : m ≤ s.length) (hq : ∀ q', q = some q' → m ≤ q'.length)
    (l : List (GOp ℝ)) (hl : ∀ op ∈ l, (∃ c, op = .column c) ∨ ∃ d, op = .diag d)
    (hv : GSt.All s.length (q.map (·.length)) (fun st op => st.Valid m (q.map (·.length)) op ∧ st.Safe op) ⟨s, q.getD s, none⟩ l) :
    (do let b ← prepare (fun m s q => k.prepare memE memZ m s q) isNotFinite m (s.map .fin) (q.map fun x : List ℝ => x.map Fl.fin)
        replies (Batch.ops (GenKind.ops memE memZ)) b (l.map finOp)).map
          (fun r : Batch (ColCache ℝ ⊕ ZN) × List (List (Fl ℝ)) => (r.1.gen, r.2)) =
      (do let g ← k.prepare memE memZ m (s.map .fin) (q.map fun x : List ℝ => x.map Fl.fin); replies (GenKind.ops memE memZ) g (l.map finOp)) := by
  have e1 : (q.map fun x : List ℝ => x.map (Fl.fin (K := ℝ))).map (·.length) = q.map (·.length) := by cases q <;> simp
  have e2 : (q.map fun x : List ℝ => x.map (Fl.fin (K := ℝ))).getD (s.map .fin) = (q.getD s).map .fin := by cases q <;> rfl
  refine C106_batch isNotFinite_pointwise.1 _ hm (s.map .fin) (q.map fun x : List ℝ => x.map Fl.fin) (by simpa using hs) ?_ ?_ ?_ (l.map finOp) ?_ ?_ fun g hg => ?_
  · intro q' h
    cases q with
    | none => cases h
    | some q => cases h; simpa using hq q rfl
  · simp [Fl.isFinite]
  · intro q' h
    cases q with
    | none => cases h
    | some q => cases h; simp [Fl.isFinite]
  · intro op ho
    obtain ⟨o, ho', rfl⟩ := List.mem_map.mp ho
    rcases hl o ho' with ⟨c, rfl⟩ | ⟨d, rfl⟩
    · exact .inl ⟨c, rfl⟩
    · exact .inr ⟨d, rfl⟩
  · rw [e1, e2, List.length_map]
    exact finSt_all (fun st op h => (finSt_valid st op).mpr h.1) l ⟨s, q.getD s, none⟩ hv
  · rw [e1, e2, List.length_map]
    obtain ⟨x, hx1, hx2⟩ := GenKind.near_prepare memE hmemE memZ hmemZ m hm s q hs hq k
    rw [hx1] at hg
    cases hg
    exact allSized_of_near (GenKind.nearServes memE hmemE memZ hmemZ m s.length (q.map (·.length)) k) l _ ⟨s, q.getD s, none⟩ hx2 hv

/-- Non-vacuity: a self join on a window of 4 points, filled in two calls, the second of which drops a point. -/
noncomputable def clearCalls : List (GOp ℝ) := [.series [1, 3, 2], .column 1, .diag (-1), .series [5, 4], .column 2, .column 0, .diag 2]

theorem clearCalls_ok : GSt.All 4 none (fun st op => st.Valid 2 none op ∧ st.Safe op ∧ op.NonEmpty) ⟨[], [], none⟩ clearCalls := by
  simp [clearCalls, GSt.All, GSt.step, GSt.Valid, GSt.Safe, GOp.NonEmpty, lastN]

example (memZ : ZN.Mem) (hmemZ : memZ.Ok) := C106_repository_streaming (fun n => List.replicate n .nan) (by simp) memZ hmemZ
  (fun n => List.replicate n true) (by simp) (3/2) (by norm_num) (by norm_num) 2 4 none (by norm_num) (by norm_num) (by simp)
  (.znorm 0 2) (by norm_num [GenKind.ScaleOk]) clearCalls clearCalls_ok

/-- Non-vacuity, batch: series and query of different lengths. -/
example (memZ : ZN.Mem) (hmemZ : memZ.Ok) := C106_repository_batch (fun n => List.replicate n .nan) (by simp) memZ hmemZ 2 (by norm_num) (.euclidean 2)
  [1, 3, 2, 5] (some [4, 4, 1]) (by norm_num) (by simp) [.column 2, .diag (-1), .column 0] (by simp)
  (by simp [GSt.All, GSt.step, GSt.Valid, GSt.Safe])

end Filter
end Verif
