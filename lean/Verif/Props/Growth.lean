import Verif.Props.Reversal

/-!
# C111: more data

A calculation next to one on longer data, both with any memory, any order of the diagonals and any calls by which all diagonals get calculated.
-/

namespace Verif
open Spec
variable {α : Type}

/-- The calculations have the same subsequence length, channels, generators and trivial match buffer; the points `t` follow the series and, in a join, `u` the query. -/
structure BatchCase.Extended (B B' : BatchCase α) (t u : List α) : Prop where
  s : B'.s = B.s ++ t
  query : B'.query = B.query.map (· ++ u)
  m : B'.m = B.m
  π : B'.π = B.π
  kinds : B'.kinds = B.kinds
  buffer : B'.buffer = B.buffer

namespace BatchCase
variable {B B' : BatchCase α} {t u : List α} {idss : List (List Nat)}

theorem Extended.q (h : B.Extended B' t u) : ∃ x, B'.q = B.q ++ x := by
  unfold BatchCase.q
  rw [h.s, h.query]
  cases B.query with
  | none => exact ⟨t, rfl⟩
  | some q => exact ⟨u, rfl⟩

theorem Extended.height (h : B.Extended B' t u) : B.h ≤ B'.h := by
  obtain ⟨x, hx⟩ := h.q
  unfold BatchCase.h
  rw [hx, h.m, List.length_append]
  omega

theorem Extended.width (h : B.Extended B' t u) : B.w ≤ B'.w := by
  unfold BatchCase.w
  rw [h.s, h.m, List.length_append]
  omega

/-- If the query has not grown, the distance matrix has not grown in height. -/
theorem Extended.same_height (h : B.Extended B' t []) (hq : B.query ≠ none) : B'.h = B.h := by
  unfold BatchCase.h BatchCase.q
  rw [h.query, h.m]
  cases e : B.query with
  | none => exact absurd e hq
  | some q => simp

theorem Extended.band (h : B.Extended B' t u) : B'.b = B.b := by
  unfold BatchCase.b batchBuffer
  rw [h.query, h.buffer, h.m]
  cases B.query <;> rfl

theorem Extended.none (h : B.Extended B' t u) : B'.query = Option.none ↔ B.query = Option.none := by rw [h.query]; cases B.query <;> simp

theorem window_append (s t : List α) (m c : Nat) (h : c + m ≤ s.length) : ((s ++ t).drop c).take m = (s.drop c).take m := by
  rw [List.drop_append_of_le_length (by omega), List.take_append_of_le_length (by simp; omega)]

theorem Extended.value (h : B.Extended B' t u) (hm : 0 < B.m) (id : Nat) {r c : Nat} (hr : r < B.h) (hc : c < B.w) : B'.value id r c = B.value id r c := by
  obtain ⟨x, hx⟩ := h.q
  unfold BatchCase.h at hr
  unfold BatchCase.w at hc
  unfold BatchCase.value
  rw [h.m, h.π, h.kinds, h.s, hx, window_append _ _ _ c (by omega), window_append _ _ _ r (by omega)]

theorem nearest_more {d d' : Nat → ℝ} {h h' : Nat} {P P' : Nat → Prop} (hh : h ≤ h') (hd : ∀ r < h, d' r = d r) (hP : ∀ r < h, P r → P' r) {v v' : Fl ℝ} {i i' : Int}
    (h1 : IsNearest d h P v i) (h2 : IsNearest d' h' P' v' i') : Fl.leF v' v = true := by
  rcases h1 with ⟨rfl, hno⟩ | ⟨r, hr, hp, rfl, rfl, hmin⟩
  · rcases h2 with ⟨rfl, -⟩ | ⟨r', hr', hp', rfl, -⟩
    · simp [Fl.leF]
    · simp only [Fl.leF, ne_eq, reduceCtorEq, not_false_eq_true, decide_true, Bool.and_true, decide_eq_true_eq]
      exact le_of_lt (Fl.fin_lt_pinf _)
  · rcases h2 with ⟨-, hno⟩ | ⟨r', hr', hp', rfl, rfl, hmin'⟩
    · exact absurd (hP r hr hp) (hno r (by omega))
    · have := hmin' r (by omega) (hP r hr hp)
      rw [hd r hr] at this
      simpa [Fl.leF] using this

theorem nearest_same {d d' : Nat → ℝ} {h h' : Nat} {P P' : Nat → Prop} (hh : h ≤ h') (hd : ∀ r < h, d' r = d r) (hP : ∀ r < h', P' r ↔ r < h ∧ P r) {v v' : Fl ℝ} {i i' : Int}
    (h1 : IsNearest d h P v i) (h2 : IsNearest d' h' P' v' i') : v' = v ∧ IsNearest d h P v i' := by
  rcases h2 with ⟨rfl, hno⟩ | ⟨r', hr', hp', rfl, rfl, hmin'⟩
  · rcases h1 with ⟨rfl, hno'⟩ | ⟨r, hr, hp, rfl, rfl, hmin⟩
    · exact ⟨rfl, .inl ⟨rfl, hno'⟩⟩
    · exact absurd ((hP r (by omega)).mpr ⟨hr, hp⟩) (hno r (by omega))
  · obtain ⟨hr2, hp2⟩ := (hP r' hr').mp hp'
    rcases h1 with ⟨rfl, hno'⟩ | ⟨r, hr, hp, rfl, rfl, hmin⟩
    · exact absurd hp2 (hno' _ hr2)
    · have l1 := hmin r' hr2 hp2
      have l2 := hmin' r (by omega) ((hP r (by omega)).mpr ⟨hr, hp⟩)
      rw [hd r hr, hd r' hr2] at l2
      have e : d r = d r' := le_antisymm l1 l2
      exact ⟨by rw [hd r' hr2, e], .inr ⟨r', hr2, hp2, by rw [e], rfl, fun r'' h3 h4 => e ▸ hmin r'' h3 h4⟩⟩

theorem prefix_ext {β : Type} {w : Nat} {l l' : List β} (h1 : l.length = w) (h2 : w ≤ l'.length) (h : ∀ c < w, ∃ x, l[c]? = some x ∧ l'[c]? = some x) : l'.take w = l := by
  refine List.ext_getElem? fun c => ?_
  by_cases hc : c < w
  · obtain ⟨x, e1, e2⟩ := h c hc
    rw [List.getElem?_take_of_lt hc, e1, e2]
  · rw [List.getElem?_eq_none (by simp; omega), List.getElem?_eq_none (by omega)]

end BatchCase

/-- **C111.** `DistanceMatrix` consumers (any generators) in two complete calculations, the second one with further points after the series and the query: the first matrix is the upper left
corner of the second one (in a self-join: outside the trivial match band). Partial, like the theorem below: for Euclidean generators no two different subsequences at squared distance below
`1e-15` if columns are calculated (`BatchCase.Ok`; `C66_euclidean_nan`). -/
theorem C111_matrix_partial (B B' : BatchCase α) (t u : List α) (ids : List Nat) (hB : B.Ok (ids.map fun id => [id])) (hB' : B'.Ok (ids.map fun id => [id])) (hex : B.Extended B' t u)
    (hc : B.Complete) (hc' : B'.Complete) :
    ∃ cons cons', B.result DM.ops (ids.map fun id => (DM.new, [id])) = .ok cons ∧ B'.result DM.ops (ids.map fun id => (DM.new, [id])) = .ok cons' ∧
      List.Forall₂ (fun c c' => c.2 = c'.2 ∧ c.1.h ≤ c'.1.h ∧ c.1.w ≤ c'.1.w ∧
        ∀ i < c.1.h, ∀ j < c.1.w, (B.query = none → Apart B.b i j) → (∃ x, c.1.m i j = .fin x) ∧ c'.1.m i j = c.1.m i j) cons cons' := by
  obtain ⟨cons, h1, h2⟩ := C68_distance_matrix_partial B ids hB
  obtain ⟨cons', h3, h4⟩ := C68_distance_matrix_partial B' ids hB'
  refine ⟨cons, cons', h1, h3, ?_⟩
  rw [forall₂_iff_getElem?] at h2 h4 ⊢
  refine ⟨h4.1.trans h2.1.symm, fun n c c' hn hn' => ?_⟩
  obtain ⟨hl, -⟩ := List.getElem?_eq_some_iff.mp hn
  obtain ⟨id, hid⟩ : ∃ id, ids[n]? = some id := ⟨ids[n]'(by rw [← h2.1]; exact hl), List.getElem?_eq_getElem _⟩
  obtain ⟨e1, e2, e3, e4⟩ := h2.2 n id c hid hn
  obtain ⟨f1, f2, f3, f4⟩ := h4.2 n id c' hid hn'
  have hh := hex.height
  have hw := hex.width
  refine ⟨e1.trans f1.symm, by rw [f2, e2]; exact hh, by rw [f3, e3]; exact hw, fun i hi j hj hap => ?_⟩
  rw [e2] at hi
  rw [e3] at hj
  have g1 := (e4 i hi j hj).1 ((hB.complete hc i j hi hj).mpr hap)
  have hap' : B'.query = none → Apart B'.b i j := by rw [hex.none, hex.band]; exact hap
  have g2 := (f4 i (by omega) j (by omega)).1 ((hB'.complete hc' i j (by omega) (by omega)).mpr hap')
  refine ⟨⟨_, g1⟩, ?_⟩
  rw [g1, g2, hex.value hB.args.pos id hi hj]

/-- **C111** for `MatrixProfileLR`: with further points no entry of the matrix profile, of the left or of the right profile grows. In a self-join the left profile only gets further entries;
in a join to whose query nothing is added all three profiles only get further entries. The indices that are reported there belong to nearest subsequences in the shorter data as well. -/
theorem C111_profiles_partial (B B' : BatchCase α) (t u : List α) (ids : List Nat) (hB : B.Ok (ids.map fun id => [id])) (hB' : B'.Ok (ids.map fun id => [id])) (hex : B.Extended B' t u)
    (hc : B.Complete) (hc' : B'.Complete) :
    ∃ cons cons', B.result MP.ops (ids.map fun id => (MP.new, [id])) = .ok cons ∧ B'.result MP.ops (ids.map fun id => (MP.new, [id])) = .ok cons' ∧
      cons.length = ids.length ∧ cons'.length = ids.length ∧
      ∀ (n id : Nat) (c c' : MP ℝ × List Nat), ids[n]? = some id → cons[n]? = some c → cons'[n]? = some c' → c.2 = [id] ∧ c'.2 = [id] ∧
        (∀ j < B.w, ∃ v v' l l' r r' : Fl ℝ, (MP.merged c.1.left c.1.right)[j]? = some v ∧ (MP.merged c'.1.left c'.1.right)[j]? = some v' ∧ Fl.leF v' v = true ∧
          c.1.left[j]? = some l ∧ c'.1.left[j]? = some l' ∧ Fl.leF l' l = true ∧ c.1.right[j]? = some r ∧ c'.1.right[j]? = some r' ∧ Fl.leF r' r = true) ∧
        (B.query = none ∨ u = [] → c'.1.left.take B.w = c.1.left ∧
          ∀ j < B.w, ∃ (l : Fl ℝ) (i' : Int), c.1.left[j]? = some l ∧ c'.1.leftIdx[j]? = some i' ∧
            IsNearest (fun r => B.value id r j) B.h (fun r => (B.query = none → Apart B.b r j) ∧ r ≤ j) l i') ∧
        (B.query ≠ none → u = [] → c'.1.right.take B.w = c.1.right ∧ (MP.merged c'.1.left c'.1.right).take B.w = MP.merged c.1.left c.1.right ∧
          ∀ j < B.w, ∃ (v : Fl ℝ) (i' : Int), (MP.merged c.1.left c.1.right)[j]? = some v ∧
            (MP.mergedIdx c'.1.left c'.1.right c'.1.leftIdx c'.1.rightIdx)[j]? = some i' ∧ IsNearest (fun r => B.value id r j) B.h (fun _ => True) v i') := by
  obtain ⟨cons, h1, h2⟩ := BatchCase.allProfiles ids hB hc
  obtain ⟨cons', h3, h4⟩ := BatchCase.allProfiles ids hB' hc'
  rw [forall₂_iff_getElem?] at h2 h4
  refine ⟨cons, cons', h1, h3, h2.1, h4.1, fun n id c c' hid hn hn' => ?_⟩
  obtain ⟨e1, e2⟩ := h2.2 n id c hid hn
  obtain ⟨f1, f2⟩ := h4.2 n id c' hid hn'
  have hh := hex.height
  have hw := hex.width
  have hval : ∀ j < B.w, ∀ r < B.h, B'.value id r j = B.value id r j := fun j hj r hr => hex.value hB.args.pos id hr hj
  have hfar : ∀ j < B.w, ∀ r < B.h, (r < B'.h → j < B'.w → B'.query = none → Apart B'.b r j) ↔ (r < B.h → j < B.w → B.query = none → Apart B.b r j) := by
    intro j hj r hr
    rw [hex.none, hex.band]
    exact ⟨fun h _ _ => h (by omega) (by omega), fun h _ _ => h hr hj⟩
  have hself : B.query = none → B.h = B.w := fun hq => by unfold BatchCase.h BatchCase.w BatchCase.q; rw [hq]; rfl
  have lenM : ∀ (w : Nat) (p : MP ℝ), p.left.length = w ∧ p.right.length = w → (MP.merged p.left p.right).length = w := fun w p h => by unfold MP.merged; simp [h.1, h.2]
  have hrow : B.query = none ∨ u = [] → ∀ j < B.w, ∀ r < B'.h, r ≤ j → r < B.h := by
    intro h j hj r hr hrj
    by_cases hq : B.query = none
    · have := hself hq; omega
    · obtain rfl := h.resolve_left hq
      have := hex.same_height hq
      omega
  refine ⟨e1, f1, fun j hj => ?_, fun hqu => ?_, fun hq hu => ?_⟩
  · obtain ⟨l, r, v, li, ri, i, a1, a2, a3, a4, a5, a6, b1, b2, b3⟩ := e2.entries j hj
    obtain ⟨l', r', v', li', ri', i', a1', a2', a3', a4', a5', a6', b1', b2', b3'⟩ := f2.entries j (by omega)
    exact ⟨v, v', l, l', r, r', a3, a3', BatchCase.nearest_more hh (hval j hj) (fun r hr => (hfar j hj r hr).mpr) b3 b3',
      a1, a1', BatchCase.nearest_more hh (hval j hj) (fun r hr h => ⟨(hfar j hj r hr).mpr h.1, h.2⟩) b1 b1',
      a2, a2', BatchCase.nearest_more hh (hval j hj) (fun r hr h => ⟨(hfar j hj r hr).mpr h.1, h.2⟩) b2 b2'⟩
  · have key : ∀ j < B.w, ∃ (l : Fl ℝ) (i' : Int), c.1.left[j]? = some l ∧ c'.1.left[j]? = some l ∧ c'.1.leftIdx[j]? = some i' ∧
        IsNearest (fun r => B.value id r j) B.h (fun r => (B.query = none → Apart B.b r j) ∧ r ≤ j) l i' := by
      intro j hj
      obtain ⟨l, r, v, li, ri, i, a1, a2, a3, a4, a5, a6, b1, b2, b3⟩ := e2.entries j hj
      obtain ⟨l', r', v', li', ri', i', a1', a2', a3', a4', a5', a6', b1', b2', b3'⟩ := f2.entries j (by omega)
      obtain ⟨rfl, h⟩ := BatchCase.nearest_same hh (hval j hj) (fun r hr => ⟨fun h => have hr2 := hrow hqu j hj r hr h.2; ⟨hr2, (hfar j hj r hr2).mp h.1, h.2⟩,
        fun h => ⟨(hfar j hj r h.1).mpr h.2.1, h.2.2⟩⟩) b1 b1'
      refine ⟨l', li', a1, a1', a4', ?_⟩
      rcases h with ⟨rfl, hno⟩ | ⟨r, hr, ⟨hp, hp'⟩, rfl, hi, hmin⟩
      · exact .inl ⟨rfl, fun r hr h => hno r hr ⟨fun _ _ => h.1, h.2⟩⟩
      · exact .inr ⟨r, hr, ⟨hp hr hj, hp'⟩, rfl, hi, fun r' hr' h => hmin r' hr' ⟨fun _ _ => h.1, h.2⟩⟩
    refine ⟨BatchCase.prefix_ext e2.lengths.1 (by rw [f2.lengths.1]; exact hw) fun j hj => ?_, fun j hj => ?_⟩
    · obtain ⟨l, i', g1, g2, -⟩ := key j hj
      exact ⟨l, g1, g2⟩
    · obtain ⟨l, i', g1, g2, g3⟩ := key j hj
      exact ⟨l, i', g1, g3⟩
  · subst hu
    have hsame := hex.same_height hq
    refine ⟨BatchCase.prefix_ext e2.lengths.2 (by rw [f2.lengths.2]; exact hw) fun j hj => ?_, BatchCase.prefix_ext (lenM _ _ e2.lengths) (by rw [lenM _ _ f2.lengths]; exact hw) fun j hj => ?_,
      fun j hj => ?_⟩ <;>
      obtain ⟨l, r, v, li, ri, i, a1, a2, a3, a4, a5, a6, b1, b2, b3⟩ := e2.entries j hj <;>
      obtain ⟨l', r', v', li', ri', i', a1', a2', a3', a4', a5', a6', b1', b2', b3'⟩ := f2.entries j (by omega)
    · obtain ⟨rfl, h⟩ := BatchCase.nearest_same hh (hval j hj) (fun r hr => ⟨fun h => ⟨by omega, (hfar j hj r (by omega)).mp h.1, h.2⟩, fun h => ⟨(hfar j hj r h.1).mpr h.2.1, h.2.2⟩⟩) b2 b2'
      exact ⟨_, a2, a2'⟩
    · obtain ⟨rfl, h⟩ := BatchCase.nearest_same hh (hval j hj) (fun r hr => ⟨fun h => ⟨by omega, (hfar j hj r (by omega)).mp h⟩, fun h => (hfar j hj r h.1).mpr h.2⟩) b3 b3'
      exact ⟨_, a3, a3'⟩
    · obtain ⟨rfl, h⟩ := BatchCase.nearest_same hh (hval j hj) (fun r hr => ⟨fun h => ⟨by omega, (hfar j hj r (by omega)).mp h⟩, fun h => (hfar j hj r h.1).mpr h.2⟩) b3 b3'
      refine ⟨_, i', a3, a6', ?_⟩
      rcases h with ⟨rfl, hno⟩ | ⟨r, hr, hp, rfl, hi, hmin⟩
      · exact .inl ⟨rfl, fun r hr h => hno r hr fun _ _ e => absurd e hq⟩
      · exact .inr ⟨r, hr, trivial, rfl, hi, fun r' hr' h => hmin r' hr' fun _ _ e => absurd e hq⟩

/-! ### Concrete cases -/

/-- The data of `exJoin` with one more point in the series and one more in the query. -/
noncomputable def exJoinLong : BatchCase (ℤ × ℤ) :=
  {exJoin with memE := fun n => List.replicate n .pinf, shuffle := id, s := [(1, 2), (5, 0), (2, 7), (8, 1), (3, 3), (2, 2)], query := some [(4, 1), (4, 6), (7, 2), (0, 9)], us := [.diagonals 7]}

theorem exJoinLong_extended : exJoin.Extended exJoinLong [(2, 2)] [(0, 9)] := ⟨rfl, rfl, rfl, rfl, rfl, rfl⟩

theorem exJoinLong_calls : AreBatchCalls 2 4 6 [-2, -1, 0, 1, 2, 3, 4] BSt.init [.diagonals 7] [.diagonals (fun _ => false) (.int 100)] := by
  refine ⟨⟨100, .inl rfl, by decide, by decide, ?_, .inl rfl⟩, trivial⟩
  intro k _ hk
  have : k = 0 ∨ k = 1 ∨ k = 2 ∨ k = 3 ∨ k = 4 ∨ k = 5 ∨ k = 6 := by omega
  rcases this with rfl | rfl | rfl | rfl | rfl | rfl | rfl <;> exact ⟨by decide, rfl⟩

theorem exJoinLong_ok {idss : List (List Nat)} (h : ∀ ids ∈ idss, ∀ id ∈ ids, id = 0 ∨ id = 2) (h0 : ∃ ids ∈ idss, 0 ∈ ids) (h2 : ∃ ids ∈ idss, 2 ∈ ids) : exJoinLong.Ok idss where
  memE := fun n => List.length_replicate
  memZ := ZN.zeroMem_ok
  perm := List.Perm.refl
  args := have h := exJoin_args h h0 h2 _ (.inl rfl)
    ⟨h.pos, by decide, by simp [exJoinLong, exJoin], h.dims, by simp [exJoinLong, exJoin], h.chan, h.ids, h.nodup, h.needed⟩
  calls := exJoinLong_calls
  good := fun ⟨a, c, _, hac⟩ => by simp [exJoinLong, exJoin] at hac

/-- The data of `exJoin` with one more point in the series, the same query. -/
noncomputable def exJoinWide : BatchCase (ℤ × ℤ) :=
  {exJoin with memE := fun n => List.replicate n .pinf, shuffle := id, s := [(1, 2), (5, 0), (2, 7), (8, 1), (3, 3), (2, 2)], us := [.diagonals 6]}

theorem exJoinWide_extended : exJoin.Extended exJoinWide [(2, 2)] [] := ⟨rfl, rfl, rfl, rfl, rfl, rfl⟩

theorem exJoinWide_calls : AreBatchCalls 2 3 6 [-1, 0, 1, 2, 3, 4] BSt.init [.diagonals 6] [.diagonals (fun _ => false) (.int 100)] := by
  refine ⟨⟨100, .inl rfl, by decide, by decide, ?_, .inl rfl⟩, trivial⟩
  intro k _ hk
  have : k = 0 ∨ k = 1 ∨ k = 2 ∨ k = 3 ∨ k = 4 ∨ k = 5 := by omega
  rcases this with rfl | rfl | rfl | rfl | rfl | rfl <;> exact ⟨by decide, rfl⟩

theorem exJoinWide_ok {idss : List (List Nat)} (h : ∀ ids ∈ idss, ∀ id ∈ ids, id = 0 ∨ id = 2) (h0 : ∃ ids ∈ idss, 0 ∈ ids) (h2 : ∃ ids ∈ idss, 2 ∈ ids) : exJoinWide.Ok idss where
  memE := fun n => List.length_replicate
  memZ := ZN.zeroMem_ok
  perm := List.Perm.refl
  args := have h := exJoin_args h h0 h2 _ (.inl rfl)
    ⟨h.pos, by decide, by simp [exJoinWide, exJoin], h.dims, by simp [exJoinWide, exJoin], h.chan, h.ids, h.nodup, h.needed⟩
  calls := exJoinWide_calls
  good := fun ⟨a, c, _, hac⟩ => by simp [exJoinWide, exJoin] at hac

/-- The self-join `exBatch` with one more point. -/
noncomputable def exBatchLong : BatchCase (ℤ × ℤ) :=
  {exBatch with memE := fun n => List.replicate n .pinf, shuffle := id, s := [(1, 2), (5, 0), (2, 7), (8, 1), (3, 3), (2, 2)], us := [.diagonals 4], os := [.diagonals (fun _ => false) (.int 100)]}

theorem exBatchLong_extended : exBatch.Extended exBatchLong [(2, 2)] [] := ⟨rfl, rfl, rfl, rfl, rfl, rfl⟩

theorem exBatchLong_calls : AreBatchCalls 2 6 6 [1, 2, 3, 4] BSt.init [.diagonals 4] [.diagonals (fun _ => false) (.int 100)] := by
  refine ⟨⟨100, .inl rfl, by decide, by decide, ?_, .inl rfl⟩, trivial⟩
  intro k _ hk
  have : k = 0 ∨ k = 1 ∨ k = 2 ∨ k = 3 := by omega
  rcases this with rfl | rfl | rfl | rfl <;> exact ⟨by decide, rfl⟩

theorem exBatchLong_ok {idss : List (List Nat)} (h : ∀ ids ∈ idss, ∀ id ∈ ids, id = 0 ∨ id = 2) (h0 : ∃ ids ∈ idss, 0 ∈ ids) (h2 : ∃ ids ∈ idss, 2 ∈ ids) : exBatchLong.Ok idss where
  memE := fun n => List.length_replicate
  memZ := ZN.zeroMem_ok
  perm := List.Perm.refl
  args := have h := (exBatch_ok h h0 h2).args
    ⟨h.pos, by decide, by simp [exBatchLong, exBatch], h.dims, by simp [exBatchLong, exBatch], h.chan, h.ids, h.nodup, h.needed⟩
  calls := exBatchLong_calls
  good := fun ⟨a, c, _, hac⟩ => by simp [exBatchLong, exBatch] at hac

example := C111_matrix_partial exJoin exJoinLong _ _ [2, 0] (exJoin_ok (by simp) (by simp) (by simp)) (exJoinLong_ok (by simp) (by simp) (by simp)) exJoinLong_extended rfl rfl

example := C111_profiles_partial exJoin exJoinLong _ _ [2, 0] (exJoin_ok (by simp) (by simp) (by simp)) (exJoinLong_ok (by simp) (by simp) (by simp)) exJoinLong_extended rfl rfl

/-- The query does not grow. -/
example := C111_profiles_partial exJoin exJoinWide _ _ [2, 0] (exJoin_ok (by simp) (by simp) (by simp)) (exJoinWide_ok (by simp) (by simp) (by simp)) exJoinWide_extended rfl rfl

/-- Self-joins. -/
example := C111_matrix_partial exBatch exBatchLong _ _ [2, 0] (exBatch_ok (by simp) (by simp) (by simp)) (exBatchLong_ok (by simp) (by simp) (by simp)) exBatchLong_extended rfl rfl

example := C111_profiles_partial exBatch exBatchLong _ _ [2, 0] (exBatch_ok (by simp) (by simp) (by simp)) (exBatchLong_ok (by simp) (by simp) (by simp)) exBatchLong_extended rfl rfl

end Verif
