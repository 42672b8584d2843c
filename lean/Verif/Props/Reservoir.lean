import Verif.Model.Reservoir
import Verif.Props.MatrixProfile
import Mathlib.Tactic.FieldSimp
import Mathlib.Tactic.Positivity

/-!
# `MatrixProfileLRReservoir`: C42, C43
-/

namespace Verif
open Spec
variable {K : Type} [LinearOrder K]

/-! ### Specification -/

/-- `v` is the smallest delivered value that is not NaN (+inf if there is none), `i` a row where it was delivered, `n` how often it was
delivered. Nothing below +inf: row -1 and 0 matches. The code does not count repetitions of -inf. -/
structure Spec.IsTie (sel : List (Fl K × Int)) (v : Fl K) (i : Int) (n : Nat) : Prop where
  number : v ≠ .nan
  lower : ∀ x ∈ sel, x.1 = .nan ∨ v ≤ x.1
  attained : (v = .pinf ∧ i = -1 ∧ n = 0) ∨ (v < .pinf ∧ (v, i) ∈ sel)
  count : ∀ x, v = .fin x → n = sel.countP fun y => decide (y.1 = v)
  ninf : v = .ninf → n = 1

/-! ### Rows among which the index is drawn -/

/-- The candidates for the index. -/
def tieRows (sel : List (Fl K × Int)) : List Int :=
  match (best sel).1 with
  | .fin _ => (sel.filter fun y => decide (y.1 = (best sel).1)).map Prod.snd
  | _ => [(best sel).2]

/-- The number of matches. -/
def tieNum (sel : List (Fl K × Int)) : Nat :=
  match (best sel).1 with
  | .pinf => 0
  | _ => (tieRows sel).length

theorem best_snoc (sel : List (Fl K × Int)) (x : Fl K × Int) : best (sel ++ [x]) = pick (best sel) x := by
  rw [best_append]; rfl

theorem ties_snoc (sel : List (Fl K × Int)) (x : Fl K × Int) :
    (Fl.ltF x.1 (best sel).1 = true → best (sel ++ [x]) = x ∧ tieRows (sel ++ [x]) = [x.2] ∧ tieNum (sel ++ [x]) = 1) ∧
    (Fl.ltF x.1 (best sel).1 = false → (Fl.eqF x.1 (best sel).1 && x.1.isFinite) = true →
      best (sel ++ [x]) = best sel ∧ tieRows (sel ++ [x]) = tieRows sel ++ [x.2] ∧ tieNum (sel ++ [x]) = tieNum sel + 1 ∧ tieNum sel = (tieRows sel).length) ∧
    (Fl.ltF x.1 (best sel).1 = false → (Fl.eqF x.1 (best sel).1 && x.1.isFinite) = false →
      best (sel ++ [x]) = best sel ∧ tieRows (sel ++ [x]) = tieRows sel ∧ tieNum (sel ++ [x]) = tieNum sel) := by
  have hb := best_isBest sel
  refine ⟨fun h => ?_, fun h h2 => ?_, fun h h2 => ?_⟩
  · have e : best (sel ++ [x]) = x := by rw [best_snoc]; simp [pick, h]
    rw [Fl.ltF_iff] at h
    have hnone : sel.filter (fun y => decide (y.1 = x.1)) = [] := by
      rw [List.filter_eq_nil_iff]
      intro y hy he
      simp only [decide_eq_true_eq] at he
      have hxn : x.1 ≠ .nan := fun hn => by rw [hn] at h; exact absurd h.1 (by simp)
      rcases hb.lower y hy with h3 | h3
      · exact hxn (he ▸ h3)
      · rw [he] at h3; exact absurd h.1 (not_lt.mpr h3)
    have hr : tieRows (sel ++ [x]) = [x.2] := by
      unfold tieRows
      rw [e]
      split
      · simp [hnone]
      · rfl
    refine ⟨e, hr, ?_⟩
    unfold tieNum
    rw [e, hr]
    split
    · rename_i hp
      rw [hp] at h
      exact absurd h.1 (by simpa using h.2)
    · rfl
  · have e : best (sel ++ [x]) = best sel := by rw [best_snoc]; simp [pick, h]
    rw [Bool.and_eq_true, Fl.eqF_iff, Fl.isFinite_iff] at h2
    obtain ⟨⟨h3, -⟩, y, h4⟩ := h2
    have hv : (best sel).1 = .fin y := by rw [← h3, h4]
    have hr : tieRows (sel ++ [x]) = tieRows sel ++ [x.2] := by
      unfold tieRows
      rw [e, hv]
      simp [h4]
    refine ⟨e, hr, ?_, ?_⟩
    · unfold tieNum
      rw [e, hr, hv]
      simp
    · unfold tieNum
      rw [hv]
  · have e : best (sel ++ [x]) = best sel := by rw [best_snoc]; simp [pick, h]
    have hr : tieRows (sel ++ [x]) = tieRows sel := by
      unfold tieRows
      rw [e]
      split
      · rename_i y hv
        rw [Bool.and_eq_false_iff] at h2
        have : x.1 ≠ .fin y := by
          intro hx
          rcases h2 with h2 | h2
          · rw [hx, hv] at h2
            have h5 : Fl.eqF (Fl.fin y) (Fl.fin y) = true := (Fl.eqF_iff _ _).mpr ⟨rfl, by simp⟩
            rw [h5] at h2; cases h2
          · rw [hx] at h2; exact absurd h2 (by simp [Fl.isFinite])
        simp [hv, this]
      · rfl
    refine ⟨e, hr, ?_⟩
    unfold tieNum
    rw [e, hr]

omit [LinearOrder K] in
theorem best_mem {sel pre post : List (Fl K × Int)} {x : Fl K × Int} (h : sel = pre ++ x :: post) : x ∈ sel := by
  subst h; simp

theorem tieRows_ne (sel : List (Fl K × Int)) : tieRows sel ≠ [] := by
  have hb := best_isBest sel
  unfold tieRows
  split
  · rename_i x hx
    rcases hb.attained with ⟨h, -⟩ | ⟨-, pre, post, h, -⟩
    · rw [h] at hx; cases hx
    · intro hn
      have hm : (best sel).2 ∈ (sel.filter fun y => decide (y.1 = (best sel).1)).map Prod.snd :=
        List.mem_map.mpr ⟨((best sel).1, (best sel).2), List.mem_filter.mpr ⟨best_mem h, by simp⟩, rfl⟩
      rw [hn] at hm
      cases hm
  · simp

theorem isTie_of_mem (sel : List (Fl K × Int)) (i : Int) (hi : i ∈ tieRows sel) : IsTie sel (best sel).1 i (tieNum sel) := by
  have hb := best_isBest sel
  refine ⟨hb.number, hb.lower, ?_, fun x hx => ?_, fun hx => ?_⟩
  · unfold tieRows at hi
    unfold tieNum
    rcases hb.attained with ⟨h1, h2⟩ | ⟨h1, pre, post, h2, -⟩
    · rw [h1] at hi ⊢
      simp only [List.mem_singleton] at hi
      exact Or.inl ⟨rfl, by rw [hi, h2], rfl⟩
    · refine Or.inr ⟨h1, ?_⟩
      have hm : ((best sel).1, (best sel).2) ∈ sel := best_mem h2
      split at hi
      · obtain ⟨y, hy, rfl⟩ := List.mem_map.mp hi
        obtain ⟨hy1, hy2⟩ := List.mem_filter.mp hy
        simp only [decide_eq_true_eq] at hy2
        rw [← hy2]; exact hy1
      · simp only [List.mem_singleton] at hi
        rw [hi]; exact hm
  · unfold tieNum tieRows
    rw [hx]
    simp only [List.length_map]
    rw [List.countP_eq_length_filter]
  · unfold tieNum tieRows
    rw [hx]
    rfl

/-! ### One column of one side -/

/-- An entry that is a possible outcome for the deliveries `sel`. -/
def EntryOk (sel : List (Fl K × Int)) (e : REntry K) : Prop := e.mp = (best sel).1 ∧ e.num = tieNum sel ∧ e.idx ∈ tieRows sel

theorem REntry.step_ok {sel : List (Fl K × Int)} {e : REntry K} (h : EntryOk sel e) (x : Fl K × Int) : (e.step x).All (EntryOk (sel ++ [x])) := by
  obtain ⟨h1, h2, h3⟩ := ties_snoc sel x
  obtain ⟨e1, e2, e3⟩ := h
  unfold REntry.step
  rw [e1]
  by_cases hlt : Fl.ltF x.1 (best sel).1 = true
  · obtain ⟨a, b, c⟩ := h1 hlt
    rw [if_pos hlt]
    exact ⟨by rw [a], by rw [c], by rw [b]; simp⟩
  · rw [Bool.not_eq_true] at hlt
    rw [if_neg (by simp [hlt])]
    by_cases heq : (Fl.eqF x.1 (best sel).1 && x.1.isFinite) = true
    · obtain ⟨a, b, c, d⟩ := h2 hlt heq
      rw [if_pos heq]
      have hp : (0 : ℚ) < ((e.num + 1 : Nat) : ℚ) := by positivity
      refine ⟨⟨by positivity, ?_⟩, ⟨by rw [a], by rw [c, e2], by rw [b]; simp⟩, ⟨by rw [a], by rw [c, e2], by rw [b]; simp [e3]⟩⟩
      rw [div_le_one hp]
      push_cast
      linarith [(Nat.cast_nonneg e.num : (0 : ℚ) ≤ _)]
    · rw [Bool.not_eq_true] at heq
      obtain ⟨a, b, c⟩ := h3 hlt heq
      rw [if_neg (by simp [heq])]
      exact ⟨by rw [a, e1], by rw [c, e2], by rw [b]; exact e3⟩

/-- The deliveries of one column, one after the other. -/
def REntry.run (e : REntry K) : List (Fl K × Int) → Rnd (REntry K)
  | [] => .pure e
  | x :: xs => (e.step x).bind fun e => e.run xs

theorem REntry.run_append (a b : List (Fl K × Int)) (e : REntry K) : e.run (a ++ b) = (e.run a).bind fun e => e.run b := by
  induction a generalizing e with
  | nil => rfl
  | cons x xs ih => simp only [List.cons_append, REntry.run, ih, Rnd.bind_assoc]

theorem REntry.run_ok {sel : List (Fl K × Int)} {e : REntry K} (h : EntryOk sel e) (l : List (Fl K × Int)) : (e.run l).All (EntryOk (sel ++ l)) := by
  induction l generalizing sel e with
  | nil => rw [List.append_nil]; exact h
  | cons x xs ih =>
    rw [List.append_cons]
    exact (REntry.step_ok h x).bind fun e' he' => ih he'

theorem entryOk_nil : EntryOk ([] : List (Fl K × Int)) ⟨.pinf, -1, 0⟩ := ⟨rfl, rfl, by simp [tieRows, best]⟩

/-- Expectations for one column: the index is uniform over the candidates. -/
theorem REntry.run_E (sel : List (Fl K × Int)) (F : REntry K → ℚ) :
    ((REntry.mk .pinf (-1) 0 : REntry K).run sel).E F = ((tieRows sel).map fun i => F ⟨(best sel).1, i, tieNum sel⟩).sum / (tieRows sel).length := by
  induction sel using List.reverseRecOn generalizing F with
  | nil => simp [REntry.run, tieRows, tieNum, best, Rnd.E]
  | append_singleton sel x ih =>
    rw [REntry.run_append, Rnd.E_bind, ih]
    obtain ⟨h1, h2, h3⟩ := ties_snoc sel x
    have hpos : (0 : ℚ) < (tieRows sel).length := by exact_mod_cast List.length_pos_iff.mpr (tieRows_ne sel)
    have hone : ∀ e : REntry K, (e.run [x]) = e.step x := fun e => by simp only [REntry.run]; exact Rnd.bind_pure _
    simp only [hone]
    unfold REntry.step
    simp only
    by_cases hlt : Fl.ltF x.1 (best sel).1 = true
    · obtain ⟨a, b, c⟩ := h1 hlt
      rw [a, b, c]
      simp only [if_pos hlt, Rnd.E, List.map_const', List.sum_replicate, nsmul_eq_mul, List.map_cons, List.map_nil, List.sum_cons, List.sum_nil,
        List.length_singleton]
      field_simp
      simp
    · rw [Bool.not_eq_true] at hlt
      by_cases heq : (Fl.eqF x.1 (best sel).1 && x.1.isFinite) = true
      · obtain ⟨a, b, c, d⟩ := h2 hlt heq
        rw [a, b, c]
        simp only [hlt, Bool.false_eq_true, if_false, if_pos heq, Rnd.E, if_true, List.map_append, List.sum_append, List.map_cons, List.map_nil,
          List.sum_cons, List.sum_nil, List.length_append, List.length_singleton]
        have hsum : ∀ (l : List Int) (A B : ℚ) (G : Int → ℚ), (l.map fun i => A + B * G i).sum = l.length * A + B * (l.map G).sum := by
          intro l A B G
          induction l with
          | nil => simp
          | cons y ys ihy => simp only [List.map_cons, List.sum_cons, ihy, List.length_cons]; push_cast; ring
        rw [hsum, d]
        set S := (List.map (fun i => F ⟨(best sel).1, i, (tieRows sel).length + 1⟩) (tieRows sel)).sum
        set n : ℚ := ((tieRows sel).length : ℚ)
        have : n + 1 ≠ 0 := by positivity
        push_cast
        field_simp
        ring
      · rw [Bool.not_eq_true] at heq
        obtain ⟨a, b, c⟩ := h3 hlt heq
        rw [a, b, c]
        simp only [hlt, heq, Bool.false_eq_true, if_false, Rnd.E]

/-! ### The whole profile -/

namespace Reservoir

/-- The calls of a history of diagonals made on the model. -/
def run (p : Reservoir K) : List (Int × List (Fl K)) → Rnd (Reservoir K)
  | [] => .pure p
  | d :: ds => (p.processDiagonal d.1 [d.2]).bind fun p => p.run ds

/-- One of the two sides. -/
def side (p : Reservoir K) (left : Bool) : List (REntry K) := if left then p.left else p.right

/-- Sizes. -/
structure Shape (p : Reservoir K) (h w : Nat) : Prop where
  range : p.range = (List.range (max h w)).map fun i : Nat => ((i + 0 : Nat) : Int)
  left : p.left.length = w
  right : p.right.length = w

omit [LinearOrder K] in
theorem Shape.side {p : Reservoir K} {h w : Nat} (hp : p.Shape h w) (left : Bool) : (p.side left).length = w := by
  cases left
  · exact hp.right
  · exact hp.left

omit [LinearOrder K] in
theorem initialise_shape (h w : Nat) : ∃ p : Reservoir K, initialise (h : Int) (w : Int) = .ok p ∧ p.Shape h w ∧
    ∀ left, ∀ c < w, (p.side left)[c]? = some ⟨.pinf, -1, 0⟩ := by
  refine ⟨_, by unfold initialise; rw [if_neg (by omega)], ⟨?_, by simp, by simp⟩, ?_⟩
  · have : (max (w : Int) (h : Int) - 0).toNat = max h w := by omega
    simp only [pyRange, this]
    apply List.map_congr_left
    intro k _
    simp
  · intro left c hc
    cases left <;> simp [side, hc]

/-- A diagonal of a NumPy array, seen from the arrays it is written into. -/
structure Upd (vals : List (Fl K)) (idx : List Int) (es : List (REntry K)) (a : Nat) : Prop where
  idx : idx.length = vals.length
  fits : a + vals.length ≤ es.length

/-- `update` on a slice and writing it back: every outcome, position by position. -/
theorem update_all (vals : List (Fl K)) (idx : List Int) (es : List (REntry K)) (a : Nat) (hu : Upd vals idx es a) (Q : Nat → REntry K → Prop)
    (hin : ∀ k v i e, vals[k]? = some v → idx[k]? = some i → es[a + k]? = some e → (e.step (v, i)).All (Q (a + k)))
    (hout : ∀ c e, es[c]? = some e → ¬ (a ≤ c ∧ c < a + vals.length) → Q c e) :
    ((update vals idx (pySlice es a (a + vals.length))).bind fun new => Rnd.lift (pyAssign es a (a + vals.length) new)).All
      fun es' => es'.length = es.length ∧ ∀ (c : Nat) e, es'[c]? = some e → Q c e := by
  obtain ⟨hu1, hu2⟩ := hu
  have hsl : pySlice es (a : Int) ((a : Int) + (vals.length : Int)) = (es.drop a).take vals.length := pySlice_nat_add es a vals.length
  have hlen : ((es.drop a).take vals.length).length = vals.length := by simp; omega
  rw [hsl]
  have hzip : update vals idx ((es.drop a).take vals.length) =
      Rnd.mapR (fun y : REntry K × (Fl K × Int) => y.1.step y.2) (((es.drop a).take vals.length).zip (vals.zip idx)) := by
    unfold update npZip
    rw [if_pos (by simp; omega)]
    simp only [Rnd.lift, Rnd.pure_bind]
    rw [if_pos (by simp; omega)]
  rw [hzip]
  set L := ((es.drop a).take vals.length).zip (vals.zip idx) with hL
  have hLlen : L.length = vals.length := by
    simp only [hL, List.length_zip, List.length_take, List.length_drop]; omega
  have hLget : ∀ k y, L[k]? = some y → es[a + k]? = some y.1 ∧ vals[k]? = some y.2.1 ∧ idx[k]? = some y.2.2 := by
    intro k y hy
    simp only [hL, List.zip, List.getElem?_zipWith] at hy
    have hk : k < vals.length := by
      have := (List.getElem?_eq_some_iff.mp (by simpa [hL, List.zip, List.getElem?_zipWith] using hy : L[k]? = some y)).1
      omega
    rw [List.getElem?_take_of_lt hk, List.getElem?_drop] at hy
    have h1 : ∃ e, es[a + k]? = some e := ⟨es[a + k], by simp⟩
    have h2 : ∃ v, vals[k]? = some v := ⟨vals[k], by simp [hk]⟩
    have h3 : ∃ i, idx[k]? = some i := ⟨idx[k], by simp [hu1, hk]⟩
    obtain ⟨e, h1⟩ := h1
    obtain ⟨v, h2⟩ := h2
    obtain ⟨i, h3⟩ := h3
    rw [h1, h2, h3] at hy
    simp at hy
    subst hy
    exact ⟨h1, h2, h3⟩
  -- independent positions; each position `k` knows its number
  have hall : ∀ (l : List (REntry K × (Fl K × Int))) (k0 : Nat), (∀ (k : Nat) (y : REntry K × (Fl K × Int)), l[k]? = some y → (y.1.step y.2).All (Q (a + (k0 + k)))) →
      (Rnd.mapR (fun y : REntry K × (Fl K × Int) => y.1.step y.2) l).All
        fun l' => l'.length = l.length ∧ ∀ (k : Nat) (e : REntry K), l'[k]? = some e → Q (a + (k0 + k)) e := by
    intro l
    induction l with
    | nil => exact fun _ _ => ⟨rfl, fun k e h => by simp at h⟩
    | cons y ys ih =>
      intro k0 h
      refine (h 0 y rfl).bind fun b hb => (ih (k0 + 1) fun k z hz => ?_).bind fun bs hbs => ?_
      · have := h (k + 1) z (by simpa using hz)
        rwa [show k0 + 1 + k = k0 + (k + 1) by omega]
      · refine ⟨by simp [hbs.1], fun k e he => ?_⟩
        cases k with
        | zero => simp at he; subst he; exact hb
        | succ k =>
          simp at he
          have := hbs.2 k e he
          rwa [show k0 + 1 + k = k0 + (k + 1) by omega] at this
  refine (hall L 0 fun k y hy => ?_).bind fun new hnew => ?_
  · obtain ⟨h1, h2, h3⟩ := hLget k y hy
    have := hin k _ _ _ h2 h3 h1
    simpa using this
  · rw [hLlen] at hnew
    rw [pyAssign_ok_add es a vals.length new hnew.1 hu2]
    refine ⟨by simp; omega, fun c e he => ?_⟩
    by_cases hc : a ≤ c ∧ c < a + vals.length
    · obtain ⟨k, rfl⟩ : ∃ k, c = a + k := ⟨c - a, by omega⟩
      rw [List.getElem?_append_left (by simp; omega), List.getElem?_append_right (by simp)] at he
      have : a + k - (List.take a es).length = k := by simp; omega
      rw [this] at he
      have := hnew.2 k e he
      simpa using this
    · refine hout c e ?_ hc
      rw [← he]
      simp only [List.getElem?_append, List.getElem?_take, List.getElem?_drop, List.length_append, List.length_take]
      grind

/-- Expectation for one position. -/
theorem update_E (vals : List (Fl K)) (idx : List Int) (es : List (REntry K)) (a : Nat) (hu : Upd vals idx es a)
    (hsure : ∀ e ∈ es, ∀ x, (e.step x).All fun _ => True) (c : Nat) (F : Option (REntry K) → ℚ) :
    (((update vals idx (pySlice es a (a + vals.length))).bind fun new => Rnd.lift (pyAssign es a (a + vals.length) new)).E fun es' => F es'[c]?) =
      match (if a ≤ c then vals[c - a]? else none), (if a ≤ c then idx[c - a]? else none), es[c]? with
      | some v, some i, some e => (e.step (v, i)).E fun e' => F (some e')
      | _, _, e => F e := by
  obtain ⟨hu1, hu2⟩ := hu
  have hsl : pySlice es (a : Int) ((a : Int) + (vals.length : Int)) = (es.drop a).take vals.length := pySlice_nat_add es a vals.length
  rw [hsl]
  have hzip : update vals idx ((es.drop a).take vals.length) =
      Rnd.mapR (fun y : REntry K × (Fl K × Int) => y.1.step y.2) (((es.drop a).take vals.length).zip (vals.zip idx)) := by
    unfold update npZip
    rw [if_pos (by simp; omega)]
    simp only [Rnd.lift, Rnd.pure_bind]
    rw [if_pos (by simp; omega)]
  rw [hzip]
  set L := ((es.drop a).take vals.length).zip (vals.zip idx) with hL
  have hLlen : L.length = vals.length := by
    simp only [hL, List.length_zip, List.length_take, List.length_drop]; omega
  have hLs : ∀ y ∈ L, (y.1.step y.2).All fun _ => True := by
    rintro ⟨e, x⟩ hy
    have := (List.of_mem_zip hy).1
    exact hsure e (List.mem_of_mem_drop (List.mem_of_mem_take this)) x
  have hmap := Rnd.All.mapR (f := fun y : REntry K × (Fl K × Int) => y.1.step y.2) (Q := fun _ _ => True) L hLs
  have hlens : (Rnd.mapR (fun y : REntry K × (Fl K × Int) => y.1.step y.2) L).All fun new => new.length = vals.length :=
    hmap.mono fun new hf => by rw [← hf.length_eq, hLlen]
  rw [Rnd.E_bind]
  by_cases hc : a ≤ c ∧ c < a + vals.length
  · obtain ⟨k, rfl⟩ : ∃ k, c = a + k := ⟨c - a, by omega⟩
    have hk : k < vals.length := by omega
    have h1 : es[a + k]? = some (es[a + k]'(by omega)) := by simp
    have h2 : vals[k]? = some (vals[k]'hk) := by simp [hk]
    have h3 : idx[k]? = some (idx[k]'(by omega)) := by simp [hu1, hk]
    rw [hlens.E_congr (g := fun new => F new[k]?)]
    · rw [Rnd.E_mapR_get _ L hLs k (es[a + k]'(by omega), (vals[k]'hk, idx[k]'(by omega)))]
      · simp only [show a ≤ a + k by omega, if_true, Nat.add_sub_cancel_left, h1, h2, h3]
      · simp only [hL, List.zip, List.getElem?_zipWith, List.getElem?_take_of_lt hk, List.getElem?_drop, h1, h2, h3]
    · intro new hnew
      rw [pyAssign_ok_add es a vals.length new hnew hu2]
      simp only [Rnd.lift, Rnd.E]
      rw [List.getElem?_append_left (by simp; omega), List.getElem?_append_right (by simp)]
      have : a + k - (List.take a es).length = k := by simp; omega
      rw [this]
  · have hm : (if a ≤ c then vals[c - a]? else none) = none := by
      split
      · simp; omega
      · rfl
    rw [hm]
    rw [hlens.E_congr (g := fun _ => F es[c]?)]
    · rw [hmap.E_const]
    · intro new hnew
      rw [pyAssign_ok_add es a vals.length new hnew hu2]
      simp only [Rnd.lift, Rnd.E]
      congr 1
      simp only [List.getElem?_append, List.getElem?_take, List.getElem?_drop, List.length_append, List.length_take]
      grind

/-- `process_diagonal` as one update of one side. -/
theorem processDiagonal_eq {p : Reservoir K} (d : Int) (vals : List (Fl K)) :
    p.processDiagonal d [vals] =
      ((update vals (diagRows p.range d vals.length) (pySlice (p.side (decide (0 ≤ d))) (d.toNat : Int) ((d.toNat : Int) + (vals.length : Int)))).bind fun es =>
        Rnd.lift (pyAssign (p.side (decide (0 ≤ d))) (d.toNat : Int) ((d.toNat : Int) + (vals.length : Int)) es)).bind fun s =>
          .pure (if 0 ≤ d then { p with left := s } else { p with right := s }) := by
  unfold processDiagonal
  have hget : pyGet [vals] 0 = .ok vals := rfl
  simp only [hget, Rnd.lift, Rnd.pure_bind, diagCols_ok]
  by_cases hd : 0 ≤ d
  · simp only [ge_iff_le, hd, if_true, side, decide_true, Rnd.bind_assoc]
  · simp only [ge_iff_le, hd, if_false, side, decide_false, Rnd.bind_assoc, Bool.false_eq_true]

/-- All entries are possible outcomes for the deliveries so far. -/
def AllOk (p : Reservoir K) (h w : Nat) (cells : List (Cell K)) : Prop :=
  p.Shape h w ∧ ∀ left, ∀ (c : Nat) e, (p.side left)[c]? = some e → EntryOk (entriesFor cells c left) e

theorem processDiagonal_all {p : Reservoir K} {h w : Nat} {cells : List (Cell K)} (hp : p.AllOk h w cells) (d : Int) (vals : List (Fl K))
    (hv : (Delivery.diag d vals).Valid h w) :
    (p.processDiagonal d [vals]).All fun p' => p'.AllOk h w (cells ++ (Delivery.diag d vals).cells 0 0) := by
  obtain ⟨hs, he⟩ := hp
  obtain ⟨hv1, hv2⟩ := hv
  obtain ⟨hi, hrow⟩ := diagRows_ok p.range (max h w) 0 hs.range d vals.length (by omega)
  have hent : ∀ (c : Nat) (left : Bool), entriesFor ((Delivery.diag d vals).cells 0 0) c left =
      if d.toNat ≤ c ∧ decide (0 ≤ d) = left then
        (vals[c - d.toNat]?.map fun v => (v, (((-d).toNat + (c - d.toNat) : Nat) : Int))).toList else [] := by
    intro c left
    simpa using entriesFor_diag d vals 0 0 c left
  rw [processDiagonal_eq]
  refine (update_all vals _ (p.side (decide (0 ≤ d))) d.toNat ⟨hi, by rw [hs.side]; omega⟩
    (fun c e => EntryOk (entriesFor (cells ++ (Delivery.diag d vals).cells 0 0) c (decide (0 ≤ d))) e) ?_ ?_).bind fun s hsd => ?_
  · intro k v i e h1 h2 h3
    rw [entriesFor_append, hent, if_pos ⟨by omega, rfl⟩]
    simp only [Nat.add_sub_cancel_left, h1, Option.map_some, Option.toList_some]
    rw [hrow k i h2]
    exact REntry.step_ok (he _ _ e h3) _
  · intro c e h1 hc
    rw [entriesFor_append, hent]
    have : (if d.toNat ≤ c ∧ decide (0 ≤ d) = decide (0 ≤ d) then
        (vals[c - d.toNat]?.map fun v => (v, (((-d).toNat + (c - d.toNat) : Nat) : Int))).toList else []) = [] := by
      split
      · have : vals[c - d.toNat]? = none := by simp; omega
        simp [this]
      · rfl
    rw [this, List.append_nil]
    exact he _ c e h1
  · have hother : ∀ left, left ≠ decide (0 ≤ d) → ∀ (c : Nat) e, (p.side left)[c]? = some e →
        EntryOk (entriesFor (cells ++ (Delivery.diag d vals).cells 0 0) c left) e := by
      intro left hl c e h1
      rw [entriesFor_append, hent, if_neg (fun h => hl h.2.symm), List.append_nil]
      exact he left c e h1
    by_cases hd : 0 ≤ d
    · simp only [hd, if_true, decide_true] at hsd hother ⊢
      refine ⟨⟨hs.range, by rw [hsd.1]; exact hs.left, hs.right⟩, fun left c e h1 => ?_⟩
      cases left
      · exact hother false (by simp) c e h1
      · exact hsd.2 c e h1
    · simp only [hd, if_false, decide_false] at hsd hother ⊢
      refine ⟨⟨hs.range, hs.left, by rw [hsd.1]; exact hs.right⟩, fun left c e h1 => ?_⟩
      cases left
      · exact hsd.2 c e h1
      · exact hother true (by simp) c e h1

/-- The calls as deliveries. -/
def asDeliveries (ds : List (Int × List (Fl K))) : List (Delivery K) := ds.map fun d => .diag d.1 d.2

theorem run_all {h w : Nat} (ds : List (Int × List (Fl K))) (hv : ∀ d ∈ asDeliveries ds, d.Valid h w) (cells : List (Cell K)) (p : Reservoir K)
    (hp : p.AllOk h w cells) : (p.run ds).All fun p' => p'.AllOk h w ((Seen.mk 0 0 cells).run (asDeliveries ds)).cells := by
  induction ds generalizing cells p with
  | nil => exact hp
  | cons d ds ih =>
    refine (processDiagonal_all hp d.1 d.2 (hv _ (by simp [asDeliveries]))).bind fun p' hp' => ?_
    exact ih (fun d hd => hv d (by simp only [asDeliveries, List.map_cons, List.mem_cons]; exact Or.inr hd)) _ p' hp'

theorem step_sure {sel : List (Fl K × Int)} {e : REntry K} (x : Fl K × Int) (_ : EntryOk sel e) : (e.step x).All fun _ => True := by
  unfold REntry.step
  split
  · trivial
  · split
    · have hp : (0 : ℚ) < ((e.num + 1 : Nat) : ℚ) := by positivity
      refine ⟨⟨by positivity, ?_⟩, trivial, trivial⟩
      rw [div_le_one hp]
      push_cast
      linarith [(Nat.cast_nonneg e.num : (0 : ℚ) ≤ _)]
    · trivial

theorem run_E {h w : Nat} (ds : List (Int × List (Fl K))) (hv : ∀ d ∈ asDeliveries ds, d.Valid h w) (cells : List (Cell K)) (p : Reservoir K)
    (hp : p.AllOk h w cells) (left : Bool) (c : Nat) (e : REntry K) (he : (p.side left)[c]? = some e) (F : Option (REntry K) → ℚ) :
    ((p.run ds).E fun p' => F (p'.side left)[c]?) =
      (e.run (entriesFor ((Seen.mk 0 0 []).run (asDeliveries ds)).cells c left)).E fun e' => F (some e') := by
  induction ds generalizing cells p e with
  | nil =>
    show F (p.side left)[c]? = _
    rw [he]
    rfl
  | cons d ds ih =>
    obtain ⟨k, vals⟩ := d
    have hvd : (Delivery.diag k vals).Valid h w := hv _ (by simp [asDeliveries])
    have hvds : ∀ d ∈ asDeliveries ds, d.Valid h w := fun d hd => hv d (by simp only [asDeliveries, List.map_cons, List.mem_cons]; exact Or.inr hd)
    have hall := processDiagonal_all hp k vals hvd
    have hrun : ∀ cs : List (Cell K), ((Seen.mk 0 0 cs).run (asDeliveries ds)).cells = cs ++ ((Seen.mk 0 0 []).run (asDeliveries ds)).cells := by
      have hns : ∀ d ∈ asDeliveries ds, ∀ n, d ≠ .shiftSeries n ∧ d ≠ .shiftQuery n := by
        intro d hd n
        obtain ⟨x, -, rfl⟩ := List.mem_map.mp hd
        simp
      intro cs
      rw [Seen.run_noShift _ hns, Seen.run_noShift _ hns]
      simp
    have hcells : ((Seen.mk 0 0 []).run (asDeliveries ((k, vals) :: ds))).cells =
        (Delivery.diag k vals).cells 0 0 ++ ((Seen.mk 0 0 []).run (asDeliveries ds)).cells := by
      rw [← hrun]; rfl
    rw [hcells, entriesFor_append, REntry.run_append, Rnd.E_bind]
    show ((p.processDiagonal k [vals]).bind fun p => p.run ds).E _ = _
    rw [Rnd.E_bind]
    set sel := entriesFor ((Seen.mk 0 0 []).run (asDeliveries ds)).cells (c : Int) left with hsel
    -- after the first diagonal
    have hstep : ((p.processDiagonal k [vals]).E fun p' => (p'.run ds).E fun p'' => F (p''.side left)[c]?) =
        (p.processDiagonal k [vals]).E fun p' => match (p'.side left)[c]? with
          | some e' => (e'.run sel).E fun e'' => F (some e'')
          | none => F none := by
      refine hall.E_congr fun p' hp' => ?_
      have hc : c < w := by
        have := (List.getElem?_eq_some_iff.mp he).1
        rwa [hp.1.side] at this
      obtain ⟨e', he'⟩ : ∃ e', (p'.side left)[c]? = some e' := ⟨(p'.side left)[c]'(by rw [hp'.1.side]; exact hc), by simp [hp'.1.side, hc]⟩
      rw [he']
      exact ih hvds _ p' hp' e' he'
    rw [hstep]
    -- one diagonal, one column
    set G : Option (REntry K) → ℚ := fun o => match o with
      | some e' => (e'.run sel).E fun e'' => F (some e'')
      | none => F none with hG
    show ((p.processDiagonal k [vals]).E fun p' => G (p'.side left)[c]?) = (e.run _).E fun e' => G (some e')
    obtain ⟨hv1, hv2⟩ := hvd
    obtain ⟨hi, hrow⟩ := diagRows_ok p.range (max h w) 0 hp.1.range k vals.length (by omega)
    have hent : entriesFor ((Delivery.diag k vals).cells 0 0) c left =
        if k.toNat ≤ c ∧ decide (0 ≤ k) = left then
          (vals[c - k.toNat]?.map fun v => (v, (((-k).toNat + (c - k.toNat) : Nat) : Int))).toList else [] := by
      simpa using entriesFor_diag k vals 0 0 c left
    have hsure : ∀ e ∈ p.side (decide (0 ≤ k)), ∀ x, (e.step x).All fun _ => True := by
      intro e hm x
      obtain ⟨j, hj⟩ := List.mem_iff_getElem?.mp hm
      exact step_sure x (hp.2 _ j e hj)
    rw [processDiagonal_eq, Rnd.E_bind]
    by_cases hl : decide (0 ≤ k) = left
    · have hside : ∀ s, (Rnd.pure (if 0 ≤ k then { p with left := s } else { p with right := s }) : Rnd (Reservoir K)).E (fun p' => G (p'.side left)[c]?) =
          G s[c]? := by
        intro s
        simp only [Rnd.E]
        by_cases hk : 0 ≤ k
        · rw [if_pos hk, ← hl]; simp [side, hk]
        · rw [if_neg hk, ← hl]; simp [side, hk]
      simp only [hside]
      rw [update_E vals _ _ k.toNat ⟨hi, by rw [hp.1.side]; omega⟩ hsure c G, hl, he, hent]
      by_cases hkc : k.toNat ≤ c
      · simp only [hkc, if_true, hl, and_self]
        cases hvc : vals[c - k.toNat]? with
        | none => rfl
        | some v =>
          have hlt := (List.getElem?_eq_some_iff.mp hvc).1
          obtain ⟨i, hi'⟩ : ∃ i, (diagRows p.range k vals.length)[c - k.toNat]? = some i :=
            ⟨(diagRows p.range k vals.length)[c - k.toNat]'(by omega), by simp [hi, hlt]⟩
          rw [hi']
          simp only [Option.map_some, Option.toList_some, REntry.run, Rnd.bind_pure]
          have := hrow _ i hi'
          simp only [Nat.add_zero] at this
          rw [this]
      · simp only [hkc, if_false, false_and]
        rfl
    · have hside : ∀ s, (Rnd.pure (if 0 ≤ k then { p with left := s } else { p with right := s }) : Rnd (Reservoir K)).E (fun p' => G (p'.side left)[c]?) =
          G (some e) := by
        intro s
        simp only [Rnd.E]
        rw [← he]
        by_cases hk : 0 ≤ k
        · cases left
          · rw [if_pos hk]; rfl
          · exact absurd (by simpa using hk) hl
        · cases left
          · exact absurd (by simpa using hk) hl
          · rw [if_neg hk]; rfl
      simp only [hside]
      rw [hent, if_neg (fun h => hl h.2)]
      have := update_all vals (diagRows p.range k vals.length) (p.side (decide (0 ≤ k))) k.toNat ⟨hi, by rw [hp.1.side]; omega⟩ (fun _ _ => True)
        (fun k v i e h1 h2 h3 => hsure e (List.mem_of_getElem? h3) _) (fun _ _ _ _ => trivial)
      rw [this.E_const]
      rfl

end Reservoir

theorem Reservoir.initialise_ok (h w : Nat) : ∃ p : Reservoir K, Reservoir.initialise (h : Int) (w : Int) = .ok p ∧ p.AllOk h w [] ∧
    ∀ left, ∀ c < w, (p.side left)[c]? = some ⟨.pinf, -1, 0⟩ := by
  obtain ⟨p, h1, h2, h3⟩ := Reservoir.initialise_shape (K := K) h w
  refine ⟨p, h1, ⟨h2, fun left c e he => ?_⟩, h3⟩
  have hc : c < w := by
    have := (List.getElem?_eq_some_iff.mp he).1
    rwa [h2.side] at this
  rw [h3 left c hc] at he
  cases he
  exact entryOk_nil

/-- **C42.** `MatrixProfileLRReservoir` of size `h` × `w` after any sequence of (parts of) diagonals (NaN and repetitions allowed): whatever the
random generator returns, nothing is raised and at every column, on either side, the profile is the smallest delivered value, the index a row
where it was delivered, and the counter the number of times it was delivered. -/
theorem C42_every_outcome (h w : Nat) (ds : List (Int × List (Fl K))) (hv : ∀ d ∈ Reservoir.asDeliveries ds, d.Valid h w) :
    ∃ p : Reservoir K, Reservoir.initialise h w = .ok p ∧ (p.run ds).All fun p' =>
      p'.left.length = w ∧ p'.right.length = w ∧ ∀ c < w,
        (∃ e, p'.left[c]? = some e ∧ IsTie (entriesFor (Seen.init.run (Reservoir.asDeliveries ds)).cells c true) e.mp e.idx e.num) ∧
        (∃ e, p'.right[c]? = some e ∧ IsTie (entriesFor (Seen.init.run (Reservoir.asDeliveries ds)).cells c false) e.mp e.idx e.num) := by
  obtain ⟨p, h1, h2, -⟩ := Reservoir.initialise_ok (K := K) h w
  refine ⟨p, h1, (Reservoir.run_all ds hv [] p h2).mono fun p' hp' => ⟨hp'.1.left, hp'.1.right, fun c hc => ?_⟩⟩
  have key : ∀ left, ∃ e, (p'.side left)[c]? = some e ∧
      IsTie (entriesFor (Seen.init.run (Reservoir.asDeliveries ds)).cells c left) e.mp e.idx e.num := by
    intro left
    obtain ⟨e, he⟩ : ∃ e, (p'.side left)[c]? = some e := ⟨(p'.side left)[c]'(by rw [hp'.1.side]; exact hc), by simp [hp'.1.side, hc]⟩
    obtain ⟨a, b, d⟩ := hp'.2 left c e he
    refine ⟨e, he, ?_⟩
    rw [a, b]
    exact isTie_of_mem _ _ d
  exact ⟨key true, key false⟩

example := C42_every_outcome 3 3 ([(2, [.fin 4]), (0, [.fin 1, .fin 2, .fin 4]), (1, [.fin 7, .nan])] : List (Int × List (Fl ℚ)))
  (by simp [Reservoir.asDeliveries, Delivery.Valid])

/-- **C42, same profile.** Whatever the random generator returns, the profiles are those of `MatrixProfileLR`. -/
theorem C42_same_profile (h w : Nat) (ds : List (Int × List (Fl K))) (hv : ∀ d ∈ Reservoir.asDeliveries ds, d.Valid h w) :
    ∃ (p : Reservoir K) (q q' : MP K), Reservoir.initialise h w = .ok p ∧ MP.initialise h w = .ok q ∧ q.run (Reservoir.asDeliveries ds) = .ok q' ∧
      (p.run ds).All fun p' => p'.left.map REntry.mp = q'.left ∧ p'.right.map REntry.mp = q'.right ∧ p'.matrixProfile = MP.merged q'.left q'.right := by
  obtain ⟨p, h1, h2⟩ := C42_every_outcome h w ds hv
  obtain ⟨q, q', g1, g2, g3, -, g4, -, g5⟩ := C38_diagonals h w (Reservoir.asDeliveries ds) (by
    intro d hd
    obtain ⟨x, -, rfl⟩ := List.mem_map.mp hd
    trivial) hv
  refine ⟨p, q, q', h1, g1, g2, h2.mono fun p' hp' => ?_⟩
  have key : ∀ (sel : List (Fl K × Int)) v i v' i' n, IsBest sel v i → IsTie sel v' i' n → v' = v := by
    intro sel v i v' i' n hb ht
    apply le_antisymm
    · rcases hb.attained with ⟨rfl, -⟩ | ⟨-, pre, post, e, -⟩
      · exact (Fl.le_pinf_iff _).mpr ht.number
      · exact (ht.lower _ (best_mem e)).resolve_left hb.number
    · rcases ht.attained with ⟨rfl, -⟩ | ⟨-, hm⟩
      · exact (Fl.le_pinf_iff _).mpr hb.number
      · exact (hb.lower _ hm).resolve_left ht.number
  have e1 : p'.left.map REntry.mp = q'.left := by
    apply List.ext_getElem?
    intro c
    rcases Nat.lt_or_ge c w with hc | hc
    · obtain ⟨e, a1, a2⟩ := (hp'.2.2 c hc).1
      obtain ⟨v, i, b1, -, b2⟩ := (g5 c hc).1
      rw [List.getElem?_map, a1, b1]
      exact congrArg some (key _ _ _ _ _ _ b2 a2)
    · rw [List.getElem?_eq_none (by simp; omega), List.getElem?_eq_none (by omega)]
  have e2 : p'.right.map REntry.mp = q'.right := by
    apply List.ext_getElem?
    intro c
    rcases Nat.lt_or_ge c w with hc | hc
    · obtain ⟨e, a1, a2⟩ := (hp'.2.2 c hc).2
      obtain ⟨v, i, b1, -, b2⟩ := (g5 c hc).2
      rw [List.getElem?_map, a1, b1]
      exact congrArg some (key _ _ _ _ _ _ b2 a2)
    · rw [List.getElem?_eq_none (by simp; omega), List.getElem?_eq_none (by omega)]
  exact ⟨e1, e2, by rw [Reservoir.matrixProfile, e1, e2]⟩

example := C42_same_profile 3 3 ([(2, [.fin 4]), (0, [.fin 1, .fin 2, .fin 4]), (1, [.fin 7, .nan])] : List (Int × List (Fl ℚ)))
  (by simp [Reservoir.asDeliveries, Delivery.Valid])

/-! ### C43 -/

/-- The smallest value `v` is finite: the candidates are the deliveries of `v`. -/
theorem tieRows_fin {sel : List (Fl K × Int)} {v : Fl K} {y : K} (hy : v = .fin y) (hmem : ∃ i, (v, i) ∈ sel) (hlow : ∀ x ∈ sel, x.1 = .nan ∨ v ≤ x.1) :
    (best sel).1 = v ∧ tieRows sel = (sel.filter fun x => decide (x.1 = v)).map Prod.snd ∧ tieNum sel = (tieRows sel).length := by
  have hb := best_isBest sel
  obtain ⟨i, hi⟩ := hmem
  have e : (best sel).1 = v := by
    apply le_antisymm
    · refine (hb.lower _ hi).resolve_left ?_
      rw [hy]; simp
    · rcases hb.attained with ⟨h, -⟩ | ⟨-, pre, post, h, -⟩
      · rw [h, hy]; exact (Fl.fin_lt_pinf y).le
      · exact (hlow _ (best_mem h)).resolve_left hb.number
  refine ⟨e, ?_, ?_⟩
  · unfold tieRows
    rw [e, hy]
  · unfold tieNum
    rw [e, hy]

theorem sum_indicator (l : List Int) (i : Int) : (l.map fun j => if j = i then (1 : ℚ) else 0).sum = (l.countP fun j => decide (j = i) : Nat) := by
  induction l with
  | nil => rfl
  | cons x xs ih =>
    rw [List.map_cons, List.sum_cons, ih, List.countP_cons]
    by_cases h : x = i
    · simp [h]; ring
    · simp [h]

omit [LinearOrder K] in
theorem Reservoir.side_cases (p : Reservoir K) (left : Bool) : p.side left = if left then p.left else p.right := rfl

/-- Probability that the index of column `c` is `i`, in terms of the candidates. -/
theorem Reservoir.Pr_idx (h w : Nat) (ds : List (Int × List (Fl K))) (hv : ∀ d ∈ Reservoir.asDeliveries ds, d.Valid h w) (p : Reservoir K)
    (hp : Reservoir.initialise h w = .ok p) (left : Bool) (c : Nat) (hc : c < w) (i : Int) :
    ((p.run ds).Pr fun p' => ∃ e, (p'.side left)[c]? = some e ∧ e.idx = i) =
      ((tieRows (entriesFor (Seen.init.run (Reservoir.asDeliveries ds)).cells c left)).countP fun j => decide (j = i) : Nat) /
        ((tieRows (entriesFor (Seen.init.run (Reservoir.asDeliveries ds)).cells c left)).length : ℚ) := by
  obtain ⟨p0, h1, h2, h3⟩ := Reservoir.initialise_ok (K := K) h w
  rw [hp] at h1
  cases h1
  classical
  have := Reservoir.run_E ds hv [] p h2 left c _ (h3 left c hc) (fun o => if ∃ e, o = some e ∧ e.idx = i then 1 else 0)
  rw [REntry.run_E] at this
  rw [Rnd.Pr_eq]
  refine Eq.trans ?_ (this.trans ?_)
  · rfl
  · simp only [Option.some.injEq, exists_eq_left', sum_indicator]
    rfl

/-- **C43.** If the smallest value `v` delivered for column `c` (on one side of the main diagonal) is finite, the index ends at row `i` with
probability (number of deliveries of `v` in row `i`) / (number of deliveries of `v`), however the diagonals are ordered. -/
theorem C43_uniform (h w : Nat) (ds : List (Int × List (Fl K))) (hv : ∀ d ∈ Reservoir.asDeliveries ds, d.Valid h w) (left : Bool) (c : Nat) (hc : c < w)
    (v : Fl K) (y : K) (hy : v = .fin y) (sel : List (Fl K × Int)) (hsel : sel = entriesFor (Seen.init.run (Reservoir.asDeliveries ds)).cells c left)
    (hmem : ∃ i, (v, i) ∈ sel) (hlow : ∀ x ∈ sel, x.1 = .nan ∨ v ≤ x.1) :
    ∃ p : Reservoir K, Reservoir.initialise h w = .ok p ∧ ∀ i : Int,
      ((p.run ds).Pr fun p' => ∃ e, (p'.side left)[c]? = some e ∧ e.idx = i) =
        (sel.countP fun x => decide (x.1 = v) && decide (x.2 = i) : Nat) / ((sel.countP fun x => decide (x.1 = v) : Nat) : ℚ) := by
  obtain ⟨p, h1, -⟩ := Reservoir.initialise_ok (K := K) h w
  refine ⟨p, h1, fun i => ?_⟩
  rw [Reservoir.Pr_idx h w ds hv p h1 left c hc i, ← hsel]
  obtain ⟨-, e2, -⟩ := tieRows_fin hy hmem hlow
  rw [e2, List.length_map, List.countP_map, List.countP_filter, List.countP_eq_length_filter]
  congr 2
  · rw [← List.countP_eq_length_filter]
    congr 1
    funext x
    simp [Bool.and_comm]
  · rw [List.countP_eq_length_filter]

example := C43_uniform 3 3 ([(2, [.fin 4]), (0, [.fin 1, .fin 2, .fin 4]), (1, [.fin 7, .nan])] : List (Int × List (Fl ℚ)))
  (by simp [Reservoir.asDeliveries, Delivery.Valid]) true 2 (by omega) _ 4 rfl [(.fin 4, 0), (.fin 4, 2), (.nan, 1)] rfl ⟨0, by simp⟩ (by simp)

/-- **C43, ties delivered once.** If every row holding the minimum was delivered once, all these rows are equally likely. -/
theorem C43_equally_likely (h w : Nat) (ds : List (Int × List (Fl K))) (hv : ∀ d ∈ Reservoir.asDeliveries ds, d.Valid h w) (left : Bool) (c : Nat)
    (hc : c < w) (v : Fl K) (y : K) (hy : v = .fin y) (sel : List (Fl K × Int))
    (hsel : sel = entriesFor (Seen.init.run (Reservoir.asDeliveries ds)).cells c left)
    (hlow : ∀ x ∈ sel, x.1 = .nan ∨ v ≤ x.1) (honce : ((sel.filter fun x => decide (x.1 = v)).map Prod.snd).Nodup) :
    ∃ p : Reservoir K, Reservoir.initialise h w = .ok p ∧ ∀ i : Int, (v, i) ∈ sel →
      ((p.run ds).Pr fun p' => ∃ e, (p'.side left)[c]? = some e ∧ e.idx = i) = 1 / ((sel.countP fun x => decide (x.1 = v) : Nat) : ℚ) := by
  obtain ⟨p, h1, -⟩ := Reservoir.initialise_ok (K := K) h w
  refine ⟨p, h1, fun i hi => ?_⟩
  obtain ⟨p', h2, h3⟩ := C43_uniform h w ds hv left c hc v y hy sel hsel ⟨i, hi⟩ hlow
  rw [h1] at h2
  cases h2
  rw [h3 i]
  congr 2
  have h4 : (sel.countP fun x => decide (x.1 = v) && decide (x.2 = i)) = ((sel.filter fun x => decide (x.1 = v)).map Prod.snd).count i := by
    rw [List.count, List.countP_map, List.countP_filter]
    congr 1
    funext x
    simp only [Function.comp_apply, Bool.and_comm]
    by_cases hx : x.2 = i <;> simp [hx]
  rw [h4]
  exact_mod_cast List.count_eq_one_of_mem honce (List.mem_map.mpr ⟨(v, i), List.mem_filter.mpr ⟨hi, by simp⟩, rfl⟩)

example := C43_equally_likely 3 3 ([(2, [.fin 4]), (0, [.fin 1, .fin 2, .fin 4]), (1, [.fin 7, .nan])] : List (Int × List (Fl ℚ)))
  (by simp [Reservoir.asDeliveries, Delivery.Valid]) true 2 (by omega) _ 4 rfl [(.fin 4, 0), (.fin 4, 2), (.nan, 1)] rfl (by simp) (by decide +kernel)

omit [LinearOrder K] in
theorem countP_sides (cells : List (Cell K)) (c : Int) (P : Fl K × Int → Bool) :
    (entriesFor cells c true).countP P + (entriesFor cells c false).countP P = cells.countP fun x => decide (x.col = c) && P (x.val, x.row) := by
  induction cells with
  | nil => rfl
  | cons x xs ih =>
    rw [List.countP_cons, ← ih]
    by_cases hx : x.col = c
    · by_cases hr : x.row ≤ x.col
      · by_cases hP : P (x.val, x.row) = true
        · simp [entriesFor, hx, show x.row ≤ c from hx ▸ hr, hP]; omega
        · simp [entriesFor, hx, show x.row ≤ c from hx ▸ hr, hP]
      · by_cases hP : P (x.val, x.row) = true
        · simp [entriesFor, hx, show ¬ x.row ≤ c from hx ▸ hr, hP]; omega
        · simp [entriesFor, hx, show ¬ x.row ≤ c from hx ▸ hr, hP]
    · simp [entriesFor, hx]

theorem countP_of_none (sel : List (Fl K × Int)) (v : Fl K) (P : Fl K × Int → Bool) (h : ∀ x ∈ sel, x.1 ≠ v) :
    (sel.countP fun x => decide (x.1 = v) && P x) = 0 := by
  rw [List.countP_eq_zero]
  intro x hx
  simp [h x hx]

/-- `merge` of possible entries, expectation. -/
theorem Reservoir.mergeIdx_E (l r : REntry K) (i : Int) :
    ((Reservoir.mergeIdx l r).E fun j => if j = i then 1 else 0) =
      if Fl.eqF l.mp r.mp && decide (l.num ≠ 0) then
        (l.num : ℚ) / ((l.num : ℚ) + (r.num : ℚ)) * (if l.idx = i then 1 else 0) +
          (1 - (l.num : ℚ) / ((l.num : ℚ) + (r.num : ℚ))) * (if r.idx = i then 1 else 0)
      else if Fl.ltF l.mp r.mp then (if l.idx = i then 1 else 0) else (if r.idx = i then 1 else 0) := by
  unfold Reservoir.mergeIdx
  split
  · simp [Rnd.E]
  · simp only [Rnd.E]
    split <;> rfl

theorem Reservoir.mergeIdx_all (l r : REntry K) : (Reservoir.mergeIdx l r).All fun j => j = l.idx ∨ j = r.idx := by
  unfold Reservoir.mergeIdx
  split
  · rename_i h
    rw [Bool.and_eq_true, decide_eq_true_eq] at h
    have hl : (0 : ℚ) < l.num := by exact_mod_cast Nat.pos_of_ne_zero h.2
    have hr : (0 : ℚ) ≤ r.num := Nat.cast_nonneg _
    refine ⟨⟨by positivity, ?_⟩, by simp [Rnd.All], by simp [Rnd.All]⟩
    rw [div_le_one (by positivity)]
    linarith
  · simp only [Rnd.All]
    split <;> simp

/-- **C43, merged index.** If the smallest value `v` delivered for column `c` (on both sides together) is finite, `profile_index()` returns row
`i` with probability (number of deliveries of `v` in row `i`) / (number of deliveries of `v`). -/
theorem C43_merged_uniform (h w : Nat) (ds : List (Int × List (Fl K))) (hv : ∀ d ∈ Reservoir.asDeliveries ds, d.Valid h w) (c : Nat) (hc : c < w)
    (v : Fl K) (y : K) (hy : v = .fin y) (cells : List (Cell K)) (hcells : cells = (Seen.init.run (Reservoir.asDeliveries ds)).cells)
    (hmem : ∃ x ∈ cells, x.col = c ∧ x.val = v) (hlow : ∀ x ∈ cells, x.col = c → x.val = .nan ∨ v ≤ x.val) :
    ∃ p : Reservoir K, Reservoir.initialise h w = .ok p ∧ ∀ i : Int,
      (((p.run ds).bind Reservoir.profileIndex).Pr fun l => l[c]? = some i) =
        (cells.countP fun x => decide (x.col = (c : Int)) && (decide (x.val = v) && decide (x.row = i)) : Nat) /
          ((cells.countP fun x => decide (x.col = (c : Int)) && decide (x.val = v) : Nat) : ℚ) := by
  obtain ⟨p, h1, h2, h3⟩ := Reservoir.initialise_ok (K := K) h w
  refine ⟨p, h1, fun i => ?_⟩
  classical
  set L := entriesFor cells (c : Int) true with hL
  set R := entriesFor cells (c : Int) false with hR
  have hlowS : ∀ left, ∀ x ∈ entriesFor cells (c : Int) left, x.1 = .nan ∨ v ≤ x.1 := by
    rintro left ⟨xv, xr⟩ hx
    exact hlow _ ((mem_entriesFor _ _ _ _ _).mp hx).1 rfl
  have hvn : v ≠ .nan := by rw [hy]; simp
  have hbestge : ∀ left, v ≤ (best (entriesFor cells (c : Int) left)).1 := by
    intro left
    have hb := best_isBest (entriesFor cells (c : Int) left)
    rcases hb.attained with ⟨e, -⟩ | ⟨-, pre, post, e, -⟩
    · rw [e]; exact (Fl.le_pinf_iff _).mpr hvn
    · exact (hlowS left _ (best_mem e)).resolve_left hb.number
  have hnone : ∀ left, (best (entriesFor cells (c : Int) left)).1 ≠ v → ∀ x ∈ entriesFor cells (c : Int) left, x.1 ≠ v := by
    intro left hne x hx he
    have hb := best_isBest (entriesFor cells (c : Int) left)
    rcases hb.lower x hx with h | h
    · exact hvn (he ▸ h)
    · rw [he] at h
      exact hne (le_antisymm h (hbestge left))
  -- the probability of each side
  have hside : ∀ left, ((p.run ds).E fun p' => (if ∃ e, (p'.side left)[c]? = some e ∧ e.idx = i then (1 : ℚ) else 0)) =
      ((tieRows (entriesFor cells (c : Int) left)).countP fun j => decide (j = i) : Nat) / ((tieRows (entriesFor cells (c : Int) left)).length : ℚ) := by
    intro left
    have := Reservoir.Pr_idx h w ds hv p h1 left c hc i
    rw [← hcells] at this
    rw [← this, Rnd.Pr_eq]
  have hfin : ∀ left, (best (entriesFor cells (c : Int) left)).1 = v →
      ((tieRows (entriesFor cells (c : Int) left)).countP fun j => decide (j = i)) =
        ((entriesFor cells (c : Int) left).countP fun x => decide (x.1 = v) && decide (x.2 = i)) ∧
      (tieRows (entriesFor cells (c : Int) left)).length = ((entriesFor cells (c : Int) left).countP fun x => decide (x.1 = v)) ∧
      tieNum (entriesFor cells (c : Int) left) = (tieRows (entriesFor cells (c : Int) left)).length := by
    intro left he
    have hb := best_isBest (entriesFor cells (c : Int) left)
    have hmem' : ∃ i, (v, i) ∈ entriesFor cells (c : Int) left := by
      rcases hb.attained with ⟨e, -⟩ | ⟨-, pre, post, e, -⟩
      · rw [he, hy] at e; cases e
      · exact ⟨_, he ▸ best_mem e⟩
    obtain ⟨-, e2, e3⟩ := tieRows_fin hy hmem' (hlowS left)
    refine ⟨?_, ?_, e3⟩
    · rw [e2, List.countP_map, List.countP_filter]
      congr 1
      funext x
      simp [Bool.and_comm]
    · rw [e2, List.length_map, List.countP_eq_length_filter]
  -- counts over both sides
  have hcnt1 := countP_sides cells (c : Int) fun x => decide (x.1 = v) && decide (x.2 = i)
  have hcnt2 := countP_sides cells (c : Int) fun x => decide (x.1 = v)
  rw [← hcnt1, ← hcnt2, ← hL, ← hR]
  -- the draw at the end
  have hE : (((p.run ds).bind Reservoir.profileIndex).Pr fun l => l[c]? = some i) = (p.run ds).E fun p' =>
      if (best L).1 = (best R).1 ∧ tieNum L ≠ 0 then
        (tieNum L : ℚ) / ((tieNum L : ℚ) + (tieNum R : ℚ)) * (if ∃ e, (p'.side true)[c]? = some e ∧ e.idx = i then (1 : ℚ) else 0) +
          (1 - (tieNum L : ℚ) / ((tieNum L : ℚ) + (tieNum R : ℚ))) * (if ∃ e, (p'.side false)[c]? = some e ∧ e.idx = i then (1 : ℚ) else 0)
      else if (best L).1 < (best R).1 then (if ∃ e, (p'.side true)[c]? = some e ∧ e.idx = i then (1 : ℚ) else 0)
      else (if ∃ e, (p'.side false)[c]? = some e ∧ e.idx = i then (1 : ℚ) else 0) := by
    rw [Rnd.Pr_eq, Rnd.E_bind]
    refine (Reservoir.run_all ds hv [] p h2).E_congr fun p' hp' => ?_
    have hcl : c < p'.left.length := by rw [hp'.1.left]; exact hc
    have hcr : c < p'.right.length := by rw [hp'.1.right]; exact hc
    obtain ⟨l, hl⟩ : ∃ l, p'.left[c]? = some l := ⟨p'.left[c], by simp [hcl]⟩
    obtain ⟨r, hr⟩ : ∃ r, p'.right[c]? = some r := ⟨p'.right[c], by simp [hcr]⟩
    obtain ⟨l1, l2, -⟩ := hp'.2 true c l hl
    obtain ⟨r1, r2, -⟩ := hp'.2 false c r hr
    have hc0 : ((Seen.mk 0 0 []).run (Reservoir.asDeliveries ds)).cells = cells := hcells.symm
    rw [hc0, ← hL] at l1 l2
    rw [hc0, ← hR] at r1 r2
    have hz : (p'.left.zip p'.right)[c]? = some (l, r) := by simp [List.zip, List.getElem?_zipWith, hl, hr]
    have := Rnd.E_mapR_get (fun y : REntry K × REntry K => Reservoir.mergeIdx y.1 y.2) (p'.left.zip p'.right)
      (fun a _ => (Reservoir.mergeIdx_all a.1 a.2).mono fun _ _ => trivial) c (l, r) hz (fun o => if o = some i then 1 else 0)
    rw [Reservoir.profileIndex]
    refine this.trans ?_
    simp only [Option.some.injEq]
    rw [Reservoir.mergeIdx_E, l1, l2, r1, r2]
    have hsl : (∃ e, (p'.side true)[c]? = some e ∧ e.idx = i) ↔ l.idx = i := by
      show (∃ e, p'.left[c]? = some e ∧ e.idx = i) ↔ _
      rw [hl]; simp
    have hsr : (∃ e, (p'.side false)[c]? = some e ∧ e.idx = i) ↔ r.idx = i := by
      show (∃ e, p'.right[c]? = some e ∧ e.idx = i) ↔ _
      rw [hr]; simp
    have hnl : (best L).1 ≠ .nan := (best_isBest L).number
    have hnr : (best R).1 ≠ .nan := (best_isBest R).number
    have hceq : ((Fl.eqF (best L).1 (best R).1 && decide (tieNum L ≠ 0)) = true) ↔ ((best L).1 = (best R).1 ∧ tieNum L ≠ 0) := by
      rw [Bool.and_eq_true, Fl.eqF_iff, decide_eq_true_eq]; tauto
    have hclt : (Fl.ltF (best L).1 (best R).1 = true) ↔ (best L).1 < (best R).1 := by
      rw [Fl.ltF_iff]; tauto
    simp only [hceq, hclt, hsl, hsr]
  rw [hE]
  have hor : (best L).1 = v ∨ (best R).1 = v := by
    obtain ⟨⟨xr, xc, xv⟩, hx, hxc, hxv⟩ := hmem
    simp only at hxc hxv
    subst hxc hxv
    by_contra hcon
    push Not at hcon
    by_cases hs : xr ≤ (c : Int)
    · exact hnone true hcon.1 (xv, xr) ((mem_entriesFor _ _ _ _ _).mpr ⟨hx, by simpa using hs⟩) rfl
    · exact hnone false hcon.2 (xv, xr) ((mem_entriesFor _ _ _ _ _).mpr ⟨hx, by simpa using hs⟩) rfl
  have hposL : (0 : ℚ) < (tieRows L).length := by exact_mod_cast List.length_pos_iff.mpr (tieRows_ne L)
  have hposR : (0 : ℚ) < (tieRows R).length := by exact_mod_cast List.length_pos_iff.mpr (tieRows_ne R)
  by_cases hl : (best L).1 = v
  · obtain ⟨l1, l2, l3⟩ := hfin true hl
    rw [← hL] at l1 l2 l3
    have hnumL : tieNum L ≠ 0 := by
      rw [l3]; exact (List.length_pos_iff.mpr (tieRows_ne L)).ne'
    by_cases hr : (best R).1 = v
    · obtain ⟨r1, r2, r3⟩ := hfin false hr
      rw [← hR] at r1 r2 r3
      simp only [hl, hr, hnumL, ne_eq, not_false_eq_true, and_self, if_true]
      rw [Rnd.E_lin, hside true, hside false, ← hL, ← hR, l3, r3, ← l1, ← r1, ← l2, ← r2]
      push_cast
      field_simp
      ring
    · have hlt : v < (best R).1 := lt_of_le_of_ne (hbestge false) (Ne.symm hr)
      simp only [hl, hlt.ne, false_and, if_false, hlt, if_true]
      rw [hside true, ← hL]
      have z1 := countP_of_none R v (fun x => decide (x.2 = i)) (hnone false hr)
      have z2 := countP_of_none R v (fun _ => true) (hnone false hr)
      simp only [Bool.and_true] at z2
      rw [z1, z2, l1, l2]
      simp
  · have hr : (best R).1 = v := hor.resolve_left hl
    obtain ⟨r1, r2, r3⟩ := hfin false hr
    rw [← hR] at r1 r2 r3
    have hlt : v < (best L).1 := lt_of_le_of_ne (hbestge true) (Ne.symm hl)
    simp only [hr, hl, false_and, if_false, not_lt.mpr hlt.le]
    rw [hside false, ← hR]
    have z1 := countP_of_none L v (fun x => decide (x.2 = i)) (hnone true hl)
    have z2 := countP_of_none L v (fun _ => true) (hnone true hl)
    simp only [Bool.and_true] at z2
    rw [z1, z2, r1, r2]
    simp

example := C43_merged_uniform 3 3 ([(2, [.fin 4]), (0, [.fin 1, .fin 2, .fin 4]), (1, [.fin 7, .nan])] : List (Int × List (Fl ℚ)))
  (by simp [Reservoir.asDeliveries, Delivery.Valid]) 2 (by omega) (.fin 4) 4 rfl _ rfl (by decide +kernel) (by decide +kernel)

/-! ### Columns -/

/-- **C42/C43, columns.** One side of a delivered column without NaN: never raises; the profile is its minimum, the counter the number of values
equal to it, and each of their rows is drawn with the same probability. -/
theorem C43_column (part : List (Fl K)) (hne : part ≠ []) (hn : Fl.nan ∉ part) (off : Int) :
    ∃ m, m ∈ part ∧ (∀ x ∈ part, m ≤ x) ∧
      (Reservoir.columnEntry part off).All (fun e => e.mp = m ∧ e.num = part.countP (fun x => decide (x = m)) ∧ ∃ j : Nat, part[j]? = some m ∧ e.idx = j + off) ∧
      ∀ j : Nat, part[j]? = some m →
        (Reservoir.columnEntry part off).Pr (fun e => e.idx = j + off) = 1 / (part.countP (fun x => decide (x = m)) : ℚ) := by
  obtain ⟨m, hm, hmem, hnan, hle⟩ := npMin_spec part hne
  have hmn : m ≠ .nan := fun h => hn (hnan.mp h)
  refine ⟨m, hmem, hle hn, ?_⟩
  set P := Reservoir.positions part m with hP
  have hPmem : ∀ k : Int, k ∈ P ↔ ∃ j : Nat, part[j]? = some m ∧ k = j := by
    intro k
    simp only [hP, Reservoir.positions, List.mem_map, List.mem_filter, Fl.eqF_iff]
    constructor
    · rintro ⟨⟨v, j⟩, ⟨h1, h2, -⟩, rfl⟩
      rw [List.mem_zipIdx_iff_getElem?] at h1
      simp only at h1 h2
      exact ⟨j, by rw [h1, h2], rfl⟩
    · rintro ⟨j, h1, rfl⟩
      exact ⟨(m, j), ⟨by rw [List.mem_zipIdx_iff_getElem?]; exact h1, rfl, hmn⟩, rfl⟩
  have hPlen : P.length = part.countP fun x => decide (x = m) := by
    have : ∀ (l : List (Fl K)) (k : Nat), ((l.zipIdx k).filter fun y => Fl.eqF y.1 m).length = l.countP fun x => decide (x = m) := by
      intro l
      induction l with
      | nil => intro k; rfl
      | cons x xs ih =>
        intro k
        rw [List.zipIdx_cons, List.filter_cons, List.countP_cons, ← ih (k + 1)]
        by_cases hx : x = m
        · have : Fl.eqF x m = true := (Fl.eqF_iff _ _).mpr ⟨hx, hx ▸ hmn⟩
          simp [hx]
          rw [hx] at this
          simp [this]
        · have : Fl.eqF x m = false := by
            rw [← Bool.not_eq_true, Fl.eqF_iff]; tauto
          simp [this, hx]
    rw [hP, Reservoir.positions, List.length_map, this]
  have hPnd : P.Nodup := by
    rw [hP, Reservoir.positions]
    have h1 : (part.zipIdx.map Prod.snd).Nodup := by
      have : part.zipIdx.map Prod.snd = List.range' 0 part.length := by simp
      rw [this]; exact List.nodup_range'
    have h2 : ((part.zipIdx.filter fun y => Fl.eqF y.1 m).map Prod.snd).Nodup := h1.sublist (List.filter_sublist.map _)
    have h3 := List.Nodup.map (f := fun n : Nat => (n : Int)) (fun a b h => by simpa using h) h2
    rw [List.map_map] at h3
    exact h3
  have hPne : P ≠ [] := by
    obtain ⟨j, hj⟩ := List.mem_iff_getElem?.mp hmem
    exact List.ne_nil_of_mem ((hPmem j).mpr ⟨j, hj, rfl⟩)
  have hPpos := List.length_pos_iff.mpr hPne
  have hce : Reservoir.columnEntry part off = (Reservoir.randomPick P).bind fun i => .pure ⟨m, i + off, P.length⟩ := by
    simp only [Reservoir.columnEntry, hm, Rnd.lift, Rnd.pure_bind, hP]
  have hgetP : ∀ k < P.length, ∃ x, pyGet P (k : Int) = .ok x ∧ P[k]? = some x := by
    intro k hk
    have : P[k]? = some P[k] := by simp [hk]
    exact ⟨P[k], (pyGet_nat_ok _ _ _).mpr this, this⟩
  -- what is drawn
  have hpickAll : (Reservoir.randomPick P).All fun i => i ∈ P := by
    unfold Reservoir.randomPick
    split
    · obtain ⟨x, hx, hx'⟩ := hgetP 0 hPpos
      have hx0 : pyGet P 0 = .ok x := hx
      rw [hx0]
      exact List.mem_of_getElem? hx'
    · rw [if_neg (by omega)]
      refine ⟨hPpos, fun k hk => ?_⟩
      obtain ⟨x, hx, hx'⟩ := hgetP k hk
      show (Rnd.lift (pyGet P (k : Int))).All _
      rw [hx]
      exact List.mem_of_getElem? hx'
  have hpickE : ∀ F : Int → ℚ, (Reservoir.randomPick P).E F = (P.map F).sum / P.length := by
    intro F
    unfold Reservoir.randomPick
    split
    · rename_i h1
      obtain ⟨a, ha⟩ := List.length_eq_one_iff.mp h1
      rw [ha]
      simp [Rnd.lift, pyGet, Rnd.E]
    · rw [if_neg (by omega)]
      simp only [Rnd.E]
      congr 2
      apply List.ext_getElem?
      intro k
      rcases Nat.lt_or_ge k P.length with hk | hk
      · obtain ⟨x, hx, hx'⟩ := hgetP k hk
        rw [List.getElem?_map, List.getElem?_range hk, List.getElem?_map, hx']
        simp [hx, Rnd.lift, Rnd.E]
      · simp [hk]
  rw [hce]
  constructor
  · refine hpickAll.bind fun i hi => ⟨rfl, hPlen, ?_⟩
    obtain ⟨j, hj, rfl⟩ := (hPmem i).mp hi
    exact ⟨j, hj, rfl⟩
  · intro j hj
    classical
    rw [Rnd.Pr_eq, Rnd.E_bind]
    simp only [Rnd.E]
    rw [hpickE]
    have : ∀ k : Int, (if k + off = (j : Int) + off then (1 : ℚ) else 0) = if k = (j : Int) then 1 else 0 := by
      intro k
      congr 1
      simp
    have hs : (P.map fun k => (if k + off = (j : Int) + off then (1 : ℚ) else 0)).sum = 1 := by
      simp only [this]
      rw [sum_indicator]
      have : (P.countP fun k => decide (k = (j : Int))) = P.count (j : Int) := by
        rw [List.count]
        congr 1
      rw [this]
      exact_mod_cast List.count_eq_one_of_mem hPnd ((hPmem j).mpr ⟨j, hj, rfl⟩)
    rw [← hPlen]
    exact congrArg (· / (P.length : ℚ)) hs

example := C43_column ([.fin 4, .fin 2, .pinf, .fin 2] : List (Fl ℚ)) (by simp) (by simp) 5

/-- A column with a NaN raises `ValueError` (nothing equals the minimum NaN, so the draw has no candidates). -/
theorem C42_nan_column (part : List (Fl K)) (hn : Fl.nan ∈ part) (off : Int) : Reservoir.columnEntry part off = .fail .valueError := by
  obtain ⟨m, hm, -, hnan, -⟩ := npMin_spec part (List.ne_nil_of_mem hn)
  have hmn : m = .nan := hnan.mpr hn
  have hP : Reservoir.positions part m = [] := by
    unfold Reservoir.positions
    rw [List.map_eq_nil_iff, List.filter_eq_nil_iff]
    intro y _ h
    rw [Fl.eqF_iff] at h
    exact h.2 (h.1.trans hmn)
  simp only [Reservoir.columnEntry, hm, Rnd.lift, Rnd.pure_bind, hP]
  rfl

example := C42_nan_column ([.fin 4, .nan, .pinf] : List (Fl ℚ)) (by simp) 5

/-- C42 and C43 are not vacuous: three diagonals with two equal minima (and a NaN) in column 2, rows 0 and 2. -/
example : (∀ d ∈ Reservoir.asDeliveries ([(2, [.fin 4]), (0, [.fin 1, .fin 2, .fin 4]), (1, [.fin 7, .nan])] : List (Int × List (Fl ℚ))), d.Valid 3 3) ∧
    entriesFor (Seen.init.run (Reservoir.asDeliveries ([(2, [.fin 4]), (0, [.fin 1, .fin 2, .fin 4]), (1, [.fin 7, .nan])] : List (Int × List (Fl ℚ))))).cells
      2 true = [(.fin 4, 0), (.fin 4, 2), (.nan, 1)] := by
  constructor
  · simp [Reservoir.asDeliveries, Delivery.Valid]
  · rfl

end Verif
