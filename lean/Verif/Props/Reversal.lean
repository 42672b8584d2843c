import Verif.Props.Swap

/-!
# C110: time reversal

A calculation next to one on the same data read backwards, both with any memory, any order of the diagonals and any calls by which all diagonals get calculated.
-/

namespace Verif
open Spec
variable {α : Type}

/-- The calculations have the same subsequence length, channels, generators and trivial match buffer, and the data of the one are the data of the other read backwards. -/
structure BatchCase.Reversed (B B' : BatchCase α) : Prop where
  s : B'.s = B.s.reverse
  query : B'.query = B.query.map List.reverse
  m : B'.m = B.m
  π : B'.π = B.π
  kinds : B'.kinds = B.kinds
  buffer : B'.buffer = B.buffer

/-! ### Distances -/

theorem seqOf_reverse (a : List ℝ) (k : Nat) (hk : k < a.length) : seqOf a.reverse (a.length - 1 - k) = seqOf a k := by
  unfold seqOf
  rw [List.getD_eq_getElem?_getD, List.getD_eq_getElem?_getD, List.getElem?_reverse (by omega)]
  congr 2
  omega

theorem sum_reverse {m : Nat} {β : Type} [AddCommMonoid β] (f g : Nat → β) (h : ∀ k < m, f (m - 1 - k) = g k) : ∑ k ∈ Finset.range m, f k = ∑ k ∈ Finset.range m, g k := by
  rw [← Finset.sum_range_reflect]
  exact Finset.sum_congr rfl fun k hk => h k (Finset.mem_range.mp hk)

section
variable {m : Nat} {a b : List ℝ} (ha : a.length = m) (hb : b.length = m)
include ha

theorem mean_reverse : mean m (seqOf a.reverse) 0 = mean m (seqOf a) 0 := by
  unfold mean
  congr 1
  refine sum_reverse _ _ fun k hk => ?_
  rw [Nat.zero_add, Nat.zero_add, ← ha, seqOf_reverse a k (by omega)]

theorem std_reverse : std m (seqOf a.reverse) 0 = std m (seqOf a) 0 := by
  unfold std var
  congr 2
  refine sum_reverse _ _ fun k hk => ?_
  rw [mean_reverse ha, Nat.zero_add, Nat.zero_add]
  rw [show m - 1 - k = a.length - 1 - k by omega, seqOf_reverse a k (by omega)]

include hb

theorem sqd_reverse : sqd m (seqOf a.reverse) (seqOf b.reverse) 0 0 = sqd m (seqOf a) (seqOf b) 0 0 := by
  unfold sqd
  refine sum_reverse _ _ fun k hk => ?_
  rw [Nat.zero_add, Nat.zero_add]
  rw [show seqOf a.reverse (m - 1 - k) = seqOf a k by rw [← ha]; exact seqOf_reverse a k (by omega),
    show seqOf b.reverse (m - 1 - k) = seqOf b k by rw [← hb]; exact seqOf_reverse b k (by omega)]

theorem zdist_reverse (noise : ℝ) : zdist m noise (seqOf a.reverse) (seqOf b.reverse) 0 0 = zdist m noise (seqOf a) (seqOf b) 0 0 := by
  have h : zsq m (seqOf a.reverse) (seqOf b.reverse) 0 0 = zsq m (seqOf a) (seqOf b) 0 0 := by
    unfold zsq
    refine sum_reverse _ _ fun k hk => ?_
    rw [mean_reverse ha, mean_reverse hb, std_reverse ha, std_reverse hb, Nat.zero_add, Nat.zero_add]
    rw [show seqOf a.reverse (m - 1 - k) = seqOf a k by rw [← ha]; exact seqOf_reverse a k (by omega),
      show seqOf b.reverse (m - 1 - k) = seqOf b k by rw [← hb]; exact seqOf_reverse b k (by omega)]
  unfold zdist znoise zflat Flat
  rw [h, std_reverse ha, std_reverse hb]

end

theorem streamValue_reverse (π : Nat → α → ℝ) (m : Nat) (kinds : List (GenKind × Nat)) (id : Nat) (a b : List α) (ha : a.length = m) (hb : b.length = m) :
    streamValue π m kinds id a.reverse b.reverse = streamValue π m kinds id a b := by
  unfold streamValue
  cases kinds[id]? with
  | none => rfl
  | some k =>
    obtain ⟨k, ch⟩ := k
    have h1 : (a.map (π ch)).length = m := by rw [List.length_map]; exact ha
    have h2 : (b.map (π ch)).length = m := by rw [List.length_map]; exact hb
    dsimp only
    rw [List.map_reverse, List.map_reverse]
    cases k with
    | euclidean scale => exact congrArg Real.sqrt (sqd_reverse h1 h2)
    | znorm noise scale => exact zdist_reverse h1 h2 noise

theorem window_reverse (s : List α) (m c : Nat) (h : c + m ≤ s.length) : (s.reverse.drop (s.length + 1 - m - 1 - c)).take m = ((s.drop c).take m).reverse := by
  rw [List.drop_reverse, List.take_reverse, List.drop_take, List.length_take]
  congr 2
  · omega
  · congr 1; omega

namespace BatchCase
variable {B B' : BatchCase α} {idss : List (List Nat)}

theorem Reversed.symm (h : B.Reversed B') : B'.Reversed B :=
  ⟨by rw [h.s, List.reverse_reverse], by rw [h.query]; cases B.query <;> simp, h.m.symm, h.π.symm, h.kinds.symm, h.buffer.symm⟩

theorem Reversed.q (h : B.Reversed B') : B'.q = B.q.reverse := by
  unfold BatchCase.q
  rw [h.s, h.query]
  cases B.query <;> rfl

theorem Reversed.height (h : B.Reversed B') : B'.h = B.h := by
  unfold BatchCase.h
  rw [h.q, h.m, List.length_reverse]

theorem Reversed.width (h : B.Reversed B') : B'.w = B.w := by
  unfold BatchCase.w
  rw [h.s, h.m, List.length_reverse]

theorem Reversed.band (h : B.Reversed B') : B'.b = B.b := by
  unfold BatchCase.b batchBuffer
  rw [h.query, h.buffer, h.m]
  cases B.query <;> rfl

theorem Reversed.value (h : B.Reversed B') (id : Nat) {r c : Nat} (hr : r < B.h) (hc : c < B.w) : B'.value id (B.h - 1 - r) (B.w - 1 - c) = B.value id r c := by
  unfold BatchCase.h at hr
  unfold BatchCase.w at hc
  unfold BatchCase.value
  rw [h.m, h.π, h.kinds, h.s, h.q]
  unfold BatchCase.h BatchCase.w
  rw [window_reverse _ _ c (by omega), window_reverse _ _ r (by omega)]
  exact streamValue_reverse _ _ _ _ _ _ (by simp; omega) (by simp; omega)

/-- The trivial match band is the same, read backwards. -/
theorem Reversed.apart (h : B.Reversed B') {r c : Nat} (hr : r < B.h) (hc : c < B.w) :
    (B'.query = none → Apart B'.b (B.h - 1 - r) (B.w - 1 - c)) ↔ (B.query = none → Apart B.b r c) := by
  have hn : B'.query = none ↔ B.query = none := by rw [h.query]; cases B.query <;> simp
  rw [hn, h.band]
  refine forall_congr' fun hq => ?_
  have hhw : B.h = B.w := by unfold BatchCase.h BatchCase.w BatchCase.q; rw [hq]; rfl
  unfold Apart
  rw [show ((B.h - 1 - r : Nat) : Int) - ((B.w - 1 - c : Nat) : Int) = -((r : Int) - c) by omega, abs_neg]

theorem nearest_reverse {d d' : Nat → ℝ} {h : Nat} {P P' : Nat → Prop} (hd : ∀ r < h, d' (h - 1 - r) = d r) (hP : ∀ r < h, P' (h - 1 - r) ↔ P r) {v v' : Fl ℝ} {i i' : Int}
    (h1 : IsNearest d h P v i) (h2 : IsNearest d' h P' v' i') : v' = v ∧ IsNearest d h P v (h - 1 - i') := by
  have back : ∀ r < h, h - 1 - (h - 1 - r) = r := fun r hr => by omega
  rcases h1 with ⟨rfl, hno⟩ | ⟨r, hr, hp, rfl, rfl, hmin⟩
  · refine ⟨?_, .inl ⟨rfl, hno⟩⟩
    rcases h2 with ⟨rfl, -⟩ | ⟨r', hr', hp', -⟩
    · rfl
    · rw [← back r' hr', hP _ (by omega)] at hp'
      exact absurd hp' (hno _ (by omega))
  · rcases h2 with ⟨-, hno⟩ | ⟨r', hr', hp', rfl, rfl, hmin'⟩
    · exact absurd ((hP r hr).mpr hp) (hno _ (by omega))
    · have hp2 := (hP (h - 1 - r') (by omega)).mp (by rw [back r' hr']; exact hp')
      have e := hd (h - 1 - r') (by omega)
      rw [back r' hr'] at e
      have l1 := hmin _ (by omega) hp2
      have l2 := hmin' _ (by omega) ((hP r hr).mpr hp)
      rw [hd r hr, e] at l2
      have e2 : d r = d (h - 1 - r') := le_antisymm l1 l2
      refine ⟨by rw [e, e2], .inr ⟨h - 1 - r', by omega, hp2, by rw [e2], by omega, fun r'' hr'' hp'' => ?_⟩⟩
      rw [← e2]
      exact hmin r'' hr'' hp''

/-- All of what `MatrixProfileLR` holds after a complete calculation. -/
theorem allProfiles (ids : List Nat) (hB : B.Ok (ids.map fun id => [id])) (hc : B.Complete) :
    ∃ cons', B.result MP.ops (ids.map fun id => (MP.new, [id])) = .ok cons' ∧
      List.Forall₂ (fun id c => c.2 = [id] ∧ IsProfile (B.value id) B.h B.w (fun r c => r < B.h → c < B.w → B.query = none → Apart B.b r c) c.1) ids cons' := by
  obtain ⟨cons', h1, h2⟩ := C67_profile_partial B.memE hB.memE B.memZ hB.memZ B.shuffle hB.perm B.π B.m B.s B.query B.nDim B.buffer B.kinds ids B.needed
    hB.args B.us B.os hB.calls hB.good
  refine ⟨cons', h1, h2.imp fun id p ⟨e1, hP⟩ => ⟨e1, hP.lengths, fun c hw => ?_⟩⟩
  obtain ⟨l, r, v, li, ri, i, a1, a2, a3, a4, a5, a6, b1, b2, b3⟩ := hP.entries c hw
  have key : ∀ (X : Nat → Prop) (v : Fl ℝ) (i : Int), IsNearest (fun r => B.value id r c) B.h (fun r => B.done r c ∧ X r) v i →
      IsNearest (fun r => B.value id r c) B.h (fun r => (r < B.h → c < B.w → B.query = none → Apart B.b r c) ∧ X r) v i := by
    intro X v i h
    have hd : ∀ r < B.h, (r < B.h → c < B.w → B.query = none → Apart B.b r c) ↔ B.done r c := fun r hr =>
      ⟨fun h => (hB.complete hc r c hr hw).mpr (h hr hw), fun h _ _ => (hB.complete hc r c hr hw).mp h⟩
    rcases h with ⟨rfl, hno⟩ | ⟨r, hr, ⟨hr1, hr2⟩, rfl, rfl, hmin⟩
    · exact .inl ⟨rfl, fun r hr h => hno r hr ⟨(hd r hr).mp h.1, h.2⟩⟩
    · exact .inr ⟨r, hr, ⟨(hd r hr).mpr hr1, hr2⟩, rfl, rfl, fun r' hr' h => hmin r' hr' ⟨(hd r' hr').mp h.1, h.2⟩⟩
  refine ⟨l, r, v, li, ri, i, a1, a2, a3, a4, a5, a6, key _ _ _ b1, key _ _ _ b2, ?_⟩
  have b3 : IsNearest (fun r => B.value id r c) B.h (fun r => B.done r c) v i := b3
  have := key (fun _ => True) v i (by simpa only [and_true] using b3)
  simpa only [and_true] using this

theorem reverse_ext {β : Type} {w : Nat} {l l' : List β} (h1 : l.length = w) (h2 : l'.length = w) (h : ∀ c < w, ∃ x, l[c]? = some x ∧ l'[w - 1 - c]? = some x) : l' = l.reverse := by
  refine List.ext_getElem? fun c => ?_
  by_cases hc : c < w
  · obtain ⟨x, e1, e2⟩ := h (w - 1 - c) (by omega)
    rw [show w - 1 - (w - 1 - c) = c by omega] at e2
    rw [e2, List.getElem?_reverse (by omega), h1, e1]
  · rw [List.getElem?_eq_none (by omega), List.getElem?_eq_none (by simp; omega)]

end BatchCase

/-- **C110.** `DistanceMatrix` consumers (any generators) in two complete calculations, the second one on the data read backwards: the second matrix is the first one turned by 180
degrees. In a self-join this concerns the pairs outside the trivial match band. Partial, like the theorem below: for Euclidean generators no two different subsequences at squared
distance below `1e-15` if columns are calculated (`BatchCase.Ok`; `C66_euclidean_nan`). -/
theorem C110_matrix_partial (B B' : BatchCase α) (ids : List Nat) (hB : B.Ok (ids.map fun id => [id])) (hB' : B'.Ok (ids.map fun id => [id])) (hrev : B.Reversed B')
    (hc : B.Complete) (hc' : B'.Complete) :
    ∃ cons cons', B.result DM.ops (ids.map fun id => (DM.new, [id])) = .ok cons ∧ B'.result DM.ops (ids.map fun id => (DM.new, [id])) = .ok cons' ∧
      List.Forall₂ (fun c c' => c.2 = c'.2 ∧ c'.1.h = c.1.h ∧ c'.1.w = c.1.w ∧
        ∀ i < c.1.h, ∀ j < c.1.w, (B.query = none → Apart B.b i j) → (∃ x, c.1.m i j = .fin x) ∧ c'.1.m (c.1.h - 1 - i) (c.1.w - 1 - j) = c.1.m i j) cons cons' := by
  obtain ⟨cons, h1, h2⟩ := C68_distance_matrix_partial B ids hB
  obtain ⟨cons', h3, h4⟩ := C68_distance_matrix_partial B' ids hB'
  refine ⟨cons, cons', h1, h3, ?_⟩
  rw [forall₂_iff_getElem?] at h2 h4 ⊢
  refine ⟨h4.1.trans h2.1.symm, fun n c c' hn hn' => ?_⟩
  obtain ⟨hl, -⟩ := List.getElem?_eq_some_iff.mp hn
  obtain ⟨id, hid⟩ : ∃ id, ids[n]? = some id := ⟨ids[n]'(by rw [← h2.1]; exact hl), List.getElem?_eq_getElem _⟩
  obtain ⟨e1, e2, e3, e4⟩ := h2.2 n id c hid hn
  obtain ⟨f1, f2, f3, f4⟩ := h4.2 n id c' hid hn'
  refine ⟨e1.trans f1.symm, by rw [f2, e2, hrev.height], by rw [f3, e3, hrev.width], fun i hi j hj hap => ?_⟩
  rw [e2] at hi ⊢
  rw [e3] at hj ⊢
  have g1 := (e4 i hi j hj).1 ((hB.complete hc i j hi hj).mpr hap)
  have hi' : B.h - 1 - i < B'.h := by rw [hrev.height]; omega
  have hj' : B.w - 1 - j < B'.w := by rw [hrev.width]; omega
  have g2 := (f4 _ hi' _ hj').1 ((hB'.complete hc' _ _ hi' hj').mpr ((hrev.apart hi hj).mpr hap))
  refine ⟨⟨_, g1⟩, ?_⟩
  rw [g1, g2, hrev.value id hi hj]

/-- **C110** for `MatrixProfileLR`: on the data read backwards the matrix profile is read backwards. In a self-join with a non-negative trivial match buffer the left profile becomes the
right profile read backwards, and the other way around. The indices reported, counted from the other end, belong to nearest subsequences. -/
theorem C110_profiles_partial (B B' : BatchCase α) (ids : List Nat) (hB : B.Ok (ids.map fun id => [id])) (hB' : B'.Ok (ids.map fun id => [id])) (hrev : B.Reversed B')
    (hc : B.Complete) (hc' : B'.Complete) :
    ∃ cons cons', B.result MP.ops (ids.map fun id => (MP.new, [id])) = .ok cons ∧ B'.result MP.ops (ids.map fun id => (MP.new, [id])) = .ok cons' ∧
      cons.length = ids.length ∧ cons'.length = ids.length ∧
      ∀ (n id : Nat) (c c' : MP ℝ × List Nat), ids[n]? = some id → cons[n]? = some c → cons'[n]? = some c' → c.2 = [id] ∧ c'.2 = [id] ∧
        MP.merged c'.1.left c'.1.right = (MP.merged c.1.left c.1.right).reverse ∧
        (B.query = none → 0 ≤ B.b → c'.1.left = c.1.right.reverse ∧ c'.1.right = c.1.left.reverse) ∧
        ∀ j < B.w, ∃ (v : Fl ℝ) (i' : Int), (MP.merged c.1.left c.1.right)[j]? = some v ∧
          (MP.mergedIdx c'.1.left c'.1.right c'.1.leftIdx c'.1.rightIdx)[B.w - 1 - j]? = some i' ∧
          IsNearest (fun r => B.value id r j) B.h (fun r => B.query = none → Apart B.b r j) v (B.h - 1 - i') := by
  obtain ⟨cons, h1, h2⟩ := BatchCase.allProfiles ids hB hc
  obtain ⟨cons', h3, h4⟩ := BatchCase.allProfiles ids hB' hc'
  rw [forall₂_iff_getElem?] at h2 h4
  refine ⟨cons, cons', h1, h3, h2.1, h4.1, fun n id c c' hid hn hn' => ?_⟩
  obtain ⟨e1, e2⟩ := h2.2 n id c hid hn
  obtain ⟨f1, f2⟩ := h4.2 n id c' hid hn'
  rw [hrev.height, hrev.width] at f2
  have hnone : B'.query = none ↔ B.query = none := by rw [hrev.query]; cases B.query <;> simp
  have key : ∀ j < B.w, ∀ (X X' : Nat → Prop), (∀ r < B.h, (B.query = none → Apart B.b r j) → (X' (B.h - 1 - r) ↔ X r)) → ∀ (v v' : Fl ℝ) (i i' : Int),
      IsNearest (fun r => B.value id r j) B.h (fun r => (r < B.h → j < B.w → B.query = none → Apart B.b r j) ∧ X r) v i →
      IsNearest (fun r => B'.value id r (B.w - 1 - j)) B.h (fun r => (r < B.h → B.w - 1 - j < B.w → B'.query = none → Apart B'.b r (B.w - 1 - j)) ∧ X' r) v' i' →
      v' = v ∧ IsNearest (fun r => B.value id r j) B.h (fun r => (r < B.h → j < B.w → B.query = none → Apart B.b r j) ∧ X r) v (B.h - 1 - i') := by
    intro j hj X X' hX v v' i i' g1 g2
    have hiff : ∀ r < B.h, (B.h - 1 - r < B.h → B.w - 1 - j < B.w → B'.query = none → Apart B'.b (B.h - 1 - r) (B.w - 1 - j)) ↔ (r < B.h → j < B.w → B.query = none → Apart B.b r j) :=
      fun r hr => ⟨fun h _ _ => (hrev.apart hr hj).mp (h (by omega) (by omega)), fun h _ _ => (hrev.apart hr hj).mpr (h hr hj)⟩
    exact BatchCase.nearest_reverse (d := fun r => B.value id r j) (d' := fun r => B'.value id r (B.w - 1 - j)) (h := B.h) (fun r hr => hrev.value id hr hj)
      (fun r hr => ⟨fun h => ⟨(hiff r hr).mp h.1, (hX r hr ((hiff r hr).mp h.1 hr hj)).mp h.2⟩, fun h => ⟨(hiff r hr).mpr h.1, (hX r hr (h.1 hr hj)).mpr h.2⟩⟩) g1 g2
  have ne : B.query = none → 0 ≤ B.b → ∀ j r : Nat, (B.query = none → Apart B.b r j) → r ≠ j := by
    rintro hq hb j r hap rfl
    have := hap hq
    unfold Apart at this
    simp at this
    omega
  have lenM : ∀ p : MP ℝ, p.left.length = B.w ∧ p.right.length = B.w → (MP.merged p.left p.right).length = B.w := fun p h => by unfold MP.merged; simp [h.1, h.2]
  refine ⟨e1, f1, BatchCase.reverse_ext (lenM _ e2.lengths) (lenM _ f2.lengths) fun j hj => ?_, fun hq hb => ⟨BatchCase.reverse_ext e2.lengths.2 f2.lengths.1 fun j hj => ?_,
    BatchCase.reverse_ext e2.lengths.1 f2.lengths.2 fun j hj => ?_⟩, fun j hj => ?_⟩ <;>
    obtain ⟨l, r, v, li, ri, i, a1, a2, a3, a4, a5, a6, b1, b2, b3⟩ := e2.entries j hj <;>
    obtain ⟨l', r', v', li', ri', i', a1', a2', a3', a4', a5', a6', b1', b2', b3'⟩ := f2.entries (B.w - 1 - j) (by omega)
  · have := (key j hj (fun _ => True) (fun _ => True) (fun _ _ _ => Iff.rfl) v v' i i' (by simpa only [and_true] using b3) (by simpa only [and_true] using b3')).1
    exact ⟨v, a3, by rw [a3', this]⟩
  · have hhw : B.h = B.w := by unfold BatchCase.h BatchCase.w BatchCase.q; rw [hq]; rfl
    have := (key j hj (fun r => j < r) (fun r => r ≤ B.w - 1 - j) (fun r hr hap => by have := ne hq hb j r hap; omega) r l' ri li' b2 b1').1
    exact ⟨r, a2, by rw [a1', this]⟩
  · have hhw : B.h = B.w := by unfold BatchCase.h BatchCase.w BatchCase.q; rw [hq]; rfl
    have := (key j hj (fun r => r ≤ j) (fun r => B.w - 1 - j < r) (fun r hr hap => by have := ne hq hb j r hap; omega) l r' li ri' b1 b2').1
    exact ⟨l, a1, by rw [a2', this]⟩
  · have := (key j hj (fun _ => True) (fun _ => True) (fun _ _ _ => Iff.rfl) v v' i i' (by simpa only [and_true] using b3) (by simpa only [and_true] using b3')).2
    refine ⟨v, i', a3, a6', ?_⟩
    rcases this with ⟨rfl, hno⟩ | ⟨r, hr, ⟨hp, -⟩, rfl, hi, hmin⟩
    · exact .inl ⟨rfl, fun r hr h => hno r hr ⟨fun _ _ => h, trivial⟩⟩
    · exact .inr ⟨r, hr, hp hr hj, rfl, hi, fun r' hr' h => hmin r' hr' ⟨fun _ _ => h, trivial⟩⟩

/-! ### Concrete cases -/

/-- The data of `exJoin` read backwards, other memory and order. -/
noncomputable def exJoinBack : BatchCase (ℤ × ℤ) :=
  {exJoin with memE := fun n => List.replicate n .pinf, shuffle := id, s := [(3, 3), (8, 1), (2, 7), (5, 0), (1, 2)], query := some [(7, 2), (4, 6), (4, 1)]}

theorem exJoinBack_reversed : exJoin.Reversed exJoinBack := ⟨rfl, rfl, rfl, rfl, rfl, rfl⟩

theorem exJoinBack_calls : AreBatchCalls 2 3 5 [-1, 0, 1, 2, 3] BSt.init [.diagonals 5] [.diagonals (fun _ => false) (.int 100)] := by
  refine ⟨⟨100, .inl rfl, by decide, by decide, ?_, .inl rfl⟩, trivial⟩
  intro k _ hk
  have : k = 0 ∨ k = 1 ∨ k = 2 ∨ k = 3 ∨ k = 4 := by omega
  rcases this with rfl | rfl | rfl | rfl | rfl <;> exact ⟨by decide, rfl⟩

theorem exJoinBack_ok {idss : List (List Nat)} (h : ∀ ids ∈ idss, ∀ id ∈ ids, id = 0 ∨ id = 2) (h0 : ∃ ids ∈ idss, 0 ∈ ids) (h2 : ∃ ids ∈ idss, 2 ∈ ids) : exJoinBack.Ok idss where
  memE := fun n => List.length_replicate
  memZ := ZN.zeroMem_ok
  perm := List.Perm.refl
  args := have h := exJoin_args h h0 h2 _ (.inl rfl)
    ⟨h.pos, h.series, by simp [exJoinBack, exJoin], h.dims, by simp [exJoinBack, exJoin], h.chan, h.ids, h.nodup, h.needed⟩
  calls := exJoinBack_calls
  good := fun ⟨a, c, _, hac⟩ => by simp [exJoinBack, exJoin] at hac

/-- The data of `exBatch` (a self-join with trivial match buffer 0) read backwards. -/
noncomputable def exBatchBack : BatchCase (ℤ × ℤ) :=
  {exBatch with memE := fun n => List.replicate n .pinf, shuffle := id, s := [(3, 3), (8, 1), (2, 7), (5, 0), (1, 2)], us := [.diagonals 3], os := [.diagonals (fun _ => false) (.int 100)]}

theorem exBatchBack_reversed : exBatch.Reversed exBatchBack := ⟨rfl, rfl, rfl, rfl, rfl, rfl⟩

theorem exBatchBack_ok {idss : List (List Nat)} (h : ∀ ids ∈ idss, ∀ id ∈ ids, id = 0 ∨ id = 2) (h0 : ∃ ids ∈ idss, 0 ∈ ids) (h2 : ∃ ids ∈ idss, 2 ∈ ids) : exBatchBack.Ok idss where
  memE := fun n => List.length_replicate
  memZ := ZN.zeroMem_ok
  perm := List.Perm.refl
  args := have h := (exBatch_ok h h0 h2).args
    ⟨h.pos, h.series, by simp [exBatchBack, exBatch], h.dims, by simp [exBatchBack, exBatch], h.chan, h.ids, h.nodup, h.needed⟩
  calls := by
    show AreBatchCalls 2 5 5 [1, 2, 3] BSt.init [.diagonals 3] [.diagonals (fun _ => false) (.int 100)]
    refine ⟨⟨100, .inl rfl, by decide, by decide, ?_, .inl rfl⟩, trivial⟩
    intro k _ hk
    have : k = 0 ∨ k = 1 ∨ k = 2 := by omega
    rcases this with rfl | rfl | rfl <;> exact ⟨by decide, rfl⟩
  good := fun ⟨a, c, _, hac⟩ => by simp [exBatchBack, exBatch] at hac

/-- Consumers of a z-normalised and a Euclidean generator, a join. -/
example := C110_matrix_partial exJoin exJoinBack [2, 0] (exJoin_ok (by simp) (by simp) (by simp)) (exJoinBack_ok (by simp) (by simp) (by simp)) exJoinBack_reversed rfl rfl

example := C110_profiles_partial exJoin exJoinBack [2, 0] (exJoin_ok (by simp) (by simp) (by simp)) (exJoinBack_ok (by simp) (by simp) (by simp)) exJoinBack_reversed rfl rfl

/-- The same with a self-join, the first calculation with a column and an interrupt between its diagonals. -/
example := C110_matrix_partial exBatch exBatchBack [2, 0] (exBatch_ok (by simp) (by simp) (by simp)) (exBatchBack_ok (by simp) (by simp) (by simp)) exBatchBack_reversed rfl rfl

example := C110_profiles_partial exBatch exBatchBack [2, 0] (exBatch_ok (by simp) (by simp) (by simp)) (exBatchBack_ok (by simp) (by simp) (by simp)) exBatchBack_reversed rfl rfl

/-- The trivial match buffer of `exBatch`. -/
example : exBatch.query = none ∧ 0 ≤ exBatch.b := ⟨rfl, by decide⟩

end Verif
