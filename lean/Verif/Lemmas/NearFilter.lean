import Verif.Props.Filter
import Verif.Lemmas.NearServes
import Verif.Lemmas.StreamFeed

/-!
Filter generators around generators whose columns are only related to the distances of their windows.
-/

namespace Verif
open Spec

namespace Spec
variable {K : Type} [Zero K]

/-- The number of a finite point (0 otherwise). -/
def numOf : Fl K → K
  | .fin y => y
  | _ => 0

/-- The distance of two subsequences of the original data under a filter: `+inf` if one of them contains an invalid point. -/
def filterDist (p : Fl K → Bool) (D : List K → List K → Fl K) (a b : List (Fl K)) : Fl K :=
  if a.any p || b.any p then .pinf else D (a.map numOf) (b.map numOf)

/-- How values relate to distances under a filter: the infinite ones are exact. -/
def FilterRel {K : Type} (Rel : Fl K → Fl K → Prop) (d v : Fl K) : Prop := d = .pinf ∧ v = .pinf ∨ Rel d v

end Spec

namespace Filter
variable {G K : Type} [Zero K]
variable {ops : GenOps G K} {m N : Nat} {M : Option Nat} {D : List K → List K → Fl K} {Rel : Fl K → Fl K → Prop} {Inv : G → GSt K → Prop}
variable {p : Fl K → Bool} {good : List K → List K → Prop}

theorem map_clean (hp : ∀ x, p x = false → ∃ y, x = .fin y) (l : List (Fl K)) (h : l.any p = false) : l.map (cleanPoint p) = l.map numOf := by
  apply List.map_congr_left
  intro x hx
  have hx : p x = false := by
    rw [List.any_eq_false] at h
    simpa using h x hx
  obtain ⟨y, rfl⟩ := hp x hx
  simp [cleanPoint, hx, numOf]

/-- The distance under the filter in terms of the cleaned data. -/
theorem filterDist_win (hp : ∀ x, p x = false → ∃ y, x = .fin y) (s q : List (Fl K)) (i j : Nat) :
    filterDist p D (win m s j) (win m q i) = if hasInvalid p m s j || hasInvalid p m q i then .pinf
      else D (win m (s.map (cleanPoint p)) j) (win m (q.map (cleanPoint p)) i) := by
  unfold filterDist
  rw [show (win m s j).any p = hasInvalid p m s j from rfl, show (win m q i).any p = hasInvalid p m q i from rfl]
  split
  · rfl
  · rename_i h
    rw [Bool.not_eq_true, Bool.or_eq_false_iff] at h
    rw [win_map, win_map, map_clean hp _ h.1, map_clean hp _ h.2]

/-- Masking a column of values related to the distances. -/
theorem maskColumn_near (hp : ∀ x, p x = false → ∃ y, x = .fin y) (s q : List (Fl K)) (c : Nat) (hc : hasInvalid p m s c = false) (ws : List (Fl K))
    (hl : ws.length = q.length + 1 - m)
    (hr : ∀ i v, ws[i]? = some v → Rel (D (win m (s.map (cleanPoint p)) c) (win m (q.map (cleanPoint p)) i)) v) :
    ∃ vs, npMaskFill ws (maskOf p m q) .pinf = .ok vs ∧ vs.length = q.length + 1 - m ∧
      ∀ i v, vs[i]? = some v → FilterRel Rel (filterDist p D (win m s c) (win m q i)) v := by
  obtain ⟨vs, h1, h2, h3⟩ := npMaskFill_getElem? ws (maskOf p m q) .pinf (by rw [hl, maskOf_length])
  refine ⟨vs, h1, by rw [h2, hl], fun i v hv => ?_⟩
  have hlt : i < ws.length := by rw [← h2]; exact (List.getElem?_eq_some_iff.mp hv).1
  have := h3 i hlt (hasInvalid p m q i) _ (by rw [maskOf_getElem?, if_pos (by omega)]) (List.getElem?_eq_getElem hlt)
  rw [hv] at this
  obtain rfl := Option.some.inj this
  rw [filterDist_win hp, hc, Bool.false_or]
  cases h : hasInvalid p m q i with
  | true => exact .inl ⟨rfl, rfl⟩
  | false => exact .inr (hr i _ (List.getElem?_eq_getElem hlt))

/-- Masking a diagonal gives the distances under the filter. -/
theorem maskDiagonal_eq (hp : ∀ x, p x = false → ∃ y, x = .fin y) (s q : List (Fl K)) (d : Int)
    (hv : d + m ≤ s.length ∧ -d + m ≤ q.length ∧ m ≤ s.length ∧ m ≤ q.length) :
    maskDiagonal (maskOf p m s) (maskOf p m q) d ((List.range (diagEntries m q.length s.length d)).map fun k =>
        D (win m (s.map (cleanPoint p)) (d.toNat + k)) (win m (q.map (cleanPoint p)) ((-d).toNat + k))) =
      .ok ((List.range (diagEntries m q.length s.length d)).map fun k => filterDist p D (win m s (d.toNat + k)) (win m q ((-d).toNat + k))) := by
  obtain ⟨vs, h1, h2, h3⟩ := maskDiagonal_ok (D := D) hp s q d hv
  rw [h1]
  congr 1
  apply List.ext_getElem?
  intro k
  by_cases hk : k < diagEntries m q.length s.length d
  · obtain ⟨x, h4, h5, h6⟩ := h3 k hk
    rw [h4, List.getElem?_map, List.getElem?_range hk, Option.map_some]
    congr 1
    rw [filterDist_win hp]
    split
    · rename_i h
      exact h5 (by simpa using h)
    · rename_i h
      rw [Bool.not_eq_true, Bool.or_eq_false_iff] at h
      obtain ⟨a, b, e1, e2, e3⟩ := h6 h.1 h.2
      have inj : ∀ a b : List K, a.map Fl.fin = b.map Fl.fin → a = b := fun a b h => List.map_injective_iff.mpr (fun x y h => by cases h; rfl) h
      rw [win_clean hp s _ h.1] at e1
      rw [win_clean hp q _ h.2] at e2
      rw [e3, inj _ _ e1, inj _ _ e2]
  · rw [List.getElem?_eq_none (by omega), List.getElem?_eq_none (by simp; omega)]

/-! ### Batch -/

/-- Batch filters; the wrapped generator never sees an append. -/
theorem Batch.nearServes (hp : ∀ x, p x = false → ∃ y, x = .fin y) 
    (H : NearServes .fin ops m N M D Rel (fun st op => st.Valid m M op ∧ st.Safe op ∧ ∀ c, op = .column c → good st.s st.q) Inv) :
    NearServes id (Batch.ops ops) m N M (filterDist p D) (FilterRel Rel) 
      (fun st op => st.Valid m M op ∧ ((∀ v, op ≠ .series v) ∧ ∀ v, op ≠ .query v) ∧ ∀ c, op = .column c → good (st.s.map (cleanPoint p)) (st.q.map (cleanPoint p)))
      (fun b st => ∃ last, BInv Inv m p b st last ∧ ∀ t e, last = some (t, e) → e = true) := by
  refine ⟨?_, ?_, ?_, ?_⟩
  · rintro b st v - ⟨-, ⟨h, -⟩, -⟩; exact absurd rfl (h v)
  · rintro b st v - ⟨-, ⟨-, h⟩, -⟩; exact absurd rfl (h v)
  · rintro b st c ⟨last, hi, hl⟩ ⟨⟨v1, v2⟩, -, hgood⟩
    have hget : pyGet b.sMask (c : Int) = .ok (hasInvalid p m st.s c) := by
      rw [pyGet_nat_ok, hi.sMask, maskOf_getElem?, if_pos (by omega)]
    show ∃ g' vs, Batch.calcColumn ops b c = .ok (g', vs) ∧ _
    unfold Batch.calcColumn
    simp only [hget, bind, Except.bind]
    cases hinv : hasInvalid p m st.s c with
    | true =>
      have hfull : fullInf (K := K) b.numQ = .ok (List.replicate (st.q.length + 1 - m) .pinf) := by
        unfold fullInf
        rw [hi.numQ, if_neg (by omega)]
        congr 2; omega
      simp only [if_true, hfull, pure, Except.pure]
      refine ⟨b, _, rfl, by simp, fun i v hv => .inl ⟨?_, ?_⟩, last, ⟨hi.gen, hi.sMask, hi.qMask, hi.numQ⟩, hl⟩
      · rw [filterDist_win hp, hinv, Bool.true_or, if_pos rfl]
      · rw [List.getElem?_replicate] at hv
        split at hv
        · exact (Option.some.inj hv).symm
        · cases hv
    | false =>
      obtain ⟨g', ws, h1, h2, h3, h4⟩ := H.column b.gen _ c hi.gen ⟨⟨by simpa [cleanSt] using v1, by simpa [cleanSt] using v2⟩,
        fun t e h => .inl (hl t e h), fun _ _ => hgood c rfl⟩
      simp only [cleanSt, List.length_map] at h2
      obtain ⟨vs, h5, h6, h7⟩ := maskColumn_near hp st.s st.q c hinv ws h2 h3
      simp only [Bool.false_eq_true, if_false, h1, hi.qMask, h5, pure, Except.pure]
      exact ⟨_, vs, rfl, h6, h7, some ((c : Int), true), ⟨h4, hi.sMask, rfl, hi.numQ⟩, fun t e h => by cases h; rfl⟩
  · rintro b st d ⟨last, hi, hl⟩ ⟨hv, -, -⟩
    obtain ⟨g', h1, h2⟩ := H.diag b.gen _ d hi.gen ⟨by simpa [cleanSt, GSt.Valid] using hv, trivial, by simp⟩
    simp only [cleanSt, List.length_map] at h1
    refine ⟨{ b with gen := g' }, ?_, last, ⟨h2, hi.sMask, hi.qMask, hi.numQ⟩, hl⟩
    show Batch.calcDiagonal ops b d = _
    unfold Batch.calcDiagonal
    simp only [h1, bind, Except.bind, hi.qMask, hi.sMask, maskDiagonal_eq hp st.s st.q d hv, pure, Except.pure]

/-! ### Streaming -/

/-- Streaming filters. The wrapped generator does not see the requests for invalid columns: the column it calculated last is not to the right of the
one requested last. -/
theorem Streaming.nearServes (hp : ∀ x, p x = false → ∃ y, x = .fin y) 
    (H : NearServes .fin ops m N M D Rel (fun st op => st.Valid m M op ∧ st.Safe op ∧ ∀ c, op = .column c → good st.s st.q) Inv) :
    NearServes id (Streaming.ops ops (fun l _ => l.map p)) m N M (filterDist p D) (FilterRel Rel)
      (fun st op => st.Valid m M op ∧ op.NonEmpty ∧ (∀ c : Nat, op = .column c → ∀ t e, st.last = some (t, e) → t < (c : Int)) ∧
        ∀ c, op = .column c → good (st.s.map (cleanPoint p)) (st.q.map (cleanPoint p)))
      (fun b st => ∃ last, SInv Inv m N M p b st last ∧ ∀ t' e', last = some (t', e') → ∃ t e, st.last = some (t, e) ∧ t' ≤ t) := by
  have hf : ∀ (l : List (Fl K)) (m : Int), (fun (l : List (Fl K)) (_ : Int) => l.map p) l m = l.map p := fun _ _ => rfl
  refine ⟨?_, ?_, ?_, ?_⟩
  · rintro b st v ⟨last, h, hl⟩ ⟨-, hne, -⟩
    have hne : 0 < v.length := List.length_pos_iff.mpr hne
    obtain ⟨r, h1, h2⟩ := pushMasks_ok p _ N m st.s v h.m_pos h.m_le hne h.sMasks
    obtain ⟨g', h3, h4⟩ := H.series b.gen _ (v.map (cleanPoint p)) h.gen ⟨trivial, trivial, by simp⟩
    have h5 : ∃ last', (cleanSt p st last).step N M (.series (v.map (cleanPoint p))) = cleanSt p (st.step N M (.series v)) last' ∧
        ∀ t' e', last' = some (t', e') → ∃ t e, (st.step N M (.series v)).last = some (t, e) ∧ t' ≤ t := by
      have hv : v.length ≠ 0 := by omega
      cases M with
      | none => exact ⟨none, by simp [GSt.step, hv, cleanSt, ← List.map_append, lastN_map], by simp⟩
      | some M =>
        refine ⟨_, by simp [GSt.step, hv, cleanSt, ← List.map_append, lastN_map]; rfl, ?_⟩
        intro t' e' ht
        cases last with
        | none => simp at ht
        | some x =>
          obtain ⟨t, e, h6, h7⟩ := hl x.1 x.2 rfl
          simp only [Option.map_some, Option.some.injEq, Prod.mk.injEq] at ht
          refine ⟨_, _, by simp only [GSt.step, if_neg hv, h6, Option.map_some]; rfl, ?_⟩
          have := ht.1
          omega
    obtain ⟨last', h5, h6⟩ := h5
    rw [h5] at h4
    refine ⟨{ b with gen := g', invSeries := r.1, sSub := r.2 }, ?_, last', ?_, h6⟩
    · show b.appendSeries ops _ (v.map id) = _
      rw [List.map_id]
      unfold Streaming.appendSeries
      simp only [applyValidation_ok hf, bind, Except.bind, h.m_eq, h1, zeroed_eq hp, h3, pure, Except.pure]
    · have hq := h.qMasks
      have hs : (st.step N M (.series v)).s = lastN N (st.s ++ v) := by
        cases M <;> rw [GSt.step, if_neg (by omega)]
      refine ⟨h.m_eq, h.m_pos, h.m_le, h4, by rw [hs]; exact h2, ?_⟩
      cases M with
      | none =>
        have : (st.step N none (.series v)).q = lastN N (st.s ++ v) := by rw [GSt.step, if_neg (by omega)]
        exact ⟨hq.1, by rw [hs, this]⟩
      | some M =>
        have : (st.step N (some M) (.series v)).q = st.q := by rw [GSt.step, if_neg (by omega)]
        unfold QMasks at hq ⊢
        rw [this]; exact hq
  · rintro b st v ⟨last, h, hl⟩ ⟨hv, hne, -⟩
    have hne : 0 < v.length := List.length_pos_iff.mpr hne
    cases M with
    | none => exact absurd rfl hv
    | some M =>
      obtain ⟨hM, rq, hr, hq⟩ := h.qMasks
      obtain ⟨r, h1, h2⟩ := pushMasks_ok p _ M m st.q v h.m_pos hM hne hq
      obtain ⟨g', h3, h4⟩ := H.query b.gen _ (v.map (cleanPoint p)) h.gen ⟨hv, trivial, by simp⟩
      have h5 : (cleanSt p st last).step N (some M) (.query (v.map (cleanPoint p))) = cleanSt p (st.step N (some M) (.query v)) none := by
        have hv : v.length ≠ 0 := by omega
        simp [GSt.step, hv, cleanSt, ← List.map_append, lastN_map]
      rw [h5] at h4
      refine ⟨{ b with gen := g', query := some r }, ?_, none, ?_, by simp⟩
      · show b.appendQuery ops _ (v.map id) = _
        rw [List.map_id]
        unfold Streaming.appendQuery
        simp only [hr, applyValidation_ok hf, bind, Except.bind, h.m_eq, h1, zeroed_eq hp, h3, pure, Except.pure]
      · have hs : st.step N (some M) (.query v) = ⟨st.s, lastN M (st.q ++ v), none⟩ := by
          rw [GSt.step, if_neg (by omega)]
        refine ⟨h.m_eq, h.m_pos, h.m_le, h4, by rw [hs]; exact h.sMasks, ?_⟩
        rw [hs]
        exact ⟨hM, r, rfl, h2⟩
  · rintro b st c ⟨last, h, hl⟩ ⟨⟨v1, v2⟩, -, hlt, hgood⟩
    have hm := h.m_pos
    have hlt := hlt c rfl
    have hget : pyGet b.sSub.items (c : Int) = .ok (hasInvalid p m st.s c) := by
      rw [pyGet_nat_ok, h.sMasks.sub_eq, maskOf_getElem?, if_pos (by omega)]
    have hq := qMask_eq h.sMasks h.qMasks
    show ∃ g' vs, Streaming.calcColumn ops b c = .ok (g', vs) ∧ _
    unfold Streaming.calcColumn
    simp only [hget, bind, Except.bind]
    cases hinv : hasInvalid p m st.s c with
    | true =>
      have hfull : fullInf (K := K) (b.qMask.length : Int) = .ok (List.replicate (st.q.length + 1 - m) .pinf) := by
        unfold fullInf
        rw [if_neg (by omega), hq, maskOf_length]; rfl
      simp only [if_true, hfull, pure, Except.pure]
      refine ⟨b, _, rfl, by simp, fun i v hv => .inl ⟨?_, ?_⟩, last, ⟨h.m_eq, h.m_pos, h.m_le, h.gen, h.sMasks, h.qMasks⟩, ?_⟩
      · rw [filterDist_win hp, hinv, Bool.true_or, if_pos rfl]
      · rw [List.getElem?_replicate] at hv
        split at hv
        · exact (Option.some.inj hv).symm
        · cases hv
      · intro t' e' ht
        obtain ⟨t, e, h6, h7⟩ := hl t' e' ht
        exact ⟨c, true, rfl, by have := hlt t e h6; omega⟩
    | false =>
      obtain ⟨g', ws, h1, h2, h3, h4⟩ := H.column b.gen _ c h.gen ⟨⟨by simpa [cleanSt] using v1, by simpa [cleanSt] using v2⟩, (fun t' e' ht => by
        obtain ⟨t, e, h6, h7⟩ := hl t' e' ht
        have := hlt t e h6
        exact .inr (by omega)), fun _ _ => hgood c rfl⟩
      simp only [cleanSt, List.length_map] at h2
      obtain ⟨vs, h5, h6, h7⟩ := maskColumn_near hp st.s st.q c hinv ws h2 h3
      simp only [Bool.false_eq_true, if_false, h1, hq, h5, pure, Except.pure]
      exact ⟨_, vs, rfl, h6, h7, some ((c : Int), true), ⟨h.m_eq, h.m_pos, h.m_le, h4, h.sMasks, h.qMasks⟩, fun t e ht => by cases ht; exact ⟨c, true, rfl, le_rfl⟩⟩
  · rintro b st d ⟨last, h, hl⟩ ⟨hv, -, -⟩
    obtain ⟨g', h1, h2⟩ := H.diag b.gen _ d h.gen ⟨by simpa [cleanSt, GSt.Valid] using hv, trivial, by simp⟩
    simp only [cleanSt, List.length_map] at h1
    refine ⟨{ b with gen := g' }, ?_, last, ⟨h.m_eq, h.m_pos, h.m_le, h2, h.sMasks, h.qMasks⟩, hl⟩
    show Streaming.calcDiagonal ops b d = _
    unfold Streaming.calcDiagonal
    simp only [h1, bind, Except.bind, qMask_eq h.sMasks h.qMasks, h.sMasks.sub_eq, maskDiagonal_eq hp st.s st.q d hv, pure, Except.pure]

end Filter

/-! ### Finite data -/

section
variable {G K : Type} [Zero K]

theorem GSt.map_step {α β : Type} (f : α → β) (N : Nat) (M : Option Nat) (st : GSt α) (op : GOp α) :
    (GSt.mk (st.s.map f) (st.q.map f) st.last).step N M (match op with
      | .series v => .series (v.map f)
      | .query v => .query (v.map f)
      | .column c => .column c
      | .diag d => .diag d) = ⟨(st.step N M op).s.map f, (st.step N M op).q.map f, (st.step N M op).last⟩ := by
  cases op with
  | series v =>
    by_cases hv : v.length = 0
    · simp [GSt.step, hv]
    · cases M <;> simp [GSt.step, hv, ← List.map_append, lastN_map]
  | query v =>
    cases M with
    | none => rfl
    | some M =>
      by_cases hv : v.length = 0
      · simp [GSt.step, hv]
      · simp [GSt.step, hv, ← List.map_append, lastN_map]
  | column c => rfl
  | diag d => rfl

/-- The corresponding call with numbers. -/
def numOp : GOp (Fl K) → GOp K
  | .series v => .series (v.map numOf)
  | .query v => .query (v.map numOf)
  | .column c => .column c
  | .diag d => .diag d

/-- The corresponding windows of numbers. -/
def numSt (st : GSt (Fl K)) : GSt K := ⟨st.s.map numOf, st.q.map numOf, st.last⟩

/-- A generator of finite data, described on `Fl K`. -/
theorem NearServes.ofFinite {ops : GenOps G K} {m N : Nat} {M : Option Nat} {D : List K → List K → Fl K} {Rel : Fl K → Fl K → Prop}
    {Ok : GSt K → GOp K → Prop} {Inv : G → GSt K → Prop} (H : NearServes .fin ops m N M D Rel Ok Inv) :
    NearServes id ops m N M (fun a b => D (a.map numOf) (b.map numOf)) Rel
      (fun st op => Ok (numSt st) (numOp op) ∧ ∀ v, op = .series v ∨ op = .query v → ∀ x ∈ v, x.isFinite = true) (fun g st => Inv g (numSt st)) := by
  have hfin : ∀ v : List (Fl K), (∀ x ∈ v, x.isFinite = true) → v.map id = (v.map numOf).map .fin := by
    intro v h
    rw [List.map_map]
    apply List.map_congr_left
    intro x hx
    have := h x hx
    cases x <;> simp_all [Fl.isFinite, numOf]
  refine ⟨?_, ?_, ?_, ?_⟩
  · rintro g st v hi ⟨h1, h2⟩
    obtain ⟨g', e1, e2⟩ := H.series g _ _ hi h1
    refine ⟨g', by rw [hfin v (h2 v (.inl rfl))]; exact e1, ?_⟩
    have := GSt.map_step numOf N M st (.series v)
    simp only at this
    unfold numSt at e2 ⊢
    rw [← this]; exact e2
  · rintro g st v hi ⟨h1, h2⟩
    obtain ⟨g', e1, e2⟩ := H.query g _ _ hi h1
    refine ⟨g', by rw [hfin v (h2 v (.inr rfl))]; exact e1, ?_⟩
    have := GSt.map_step numOf N M st (.query v)
    simp only at this
    unfold numSt at e2 ⊢
    rw [← this]; exact e2
  · rintro g st c hi ⟨h1, -⟩
    obtain ⟨g', vs, e1, e2, e3, e4⟩ := H.column g _ c hi h1
    refine ⟨g', vs, e1, by simpa [numSt] using e2, fun i v hv => ?_, e4⟩
    have := e3 i v hv
    simp only [numSt, win_map] at this
    exact this
  · rintro g st d hi ⟨h1, -⟩
    obtain ⟨g', e1, e2⟩ := H.diag g _ d hi h1
    refine ⟨g', ?_, e2⟩
    simp only [numSt, win_map, List.length_map] at e1
    exact e1

end

end Verif
