import Verif.Props.Motif
import Verif.Lemmas.CaseExamples

/-!
# C104: swapping series and query

A calculation with query `b` on series `a` next to one with query `a` on series `b`, both with any memory, any order of the diagonals and any calls by which all diagonals get
calculated.
-/

namespace Verif
open Spec
variable {α : Type}

/-- The calculations have the same subsequence length, channels and generators, and the series of each is the query of the other. -/
structure BatchCase.Swapped (B B' : BatchCase α) : Prop where
  query : B.query = some B'.s
  query' : B'.query = some B.s
  m : B'.m = B.m
  π : B'.π = B.π
  kinds : B'.kinds = B.kinds

/-- All diagonals were calculated. -/
def BatchCase.Complete (B : BatchCase α) : Prop := (B.us.foldl BSt.step BSt.init).next = B.order.length

namespace BatchCase
variable {B B' : BatchCase α} {idss : List (List Nat)}

theorem Swapped.symm (h : B.Swapped B') : B'.Swapped B := ⟨h.query', h.query, h.m.symm, h.π.symm, h.kinds.symm⟩

theorem Swapped.height (h : B.Swapped B') : B.h = B'.w := by
  unfold BatchCase.h BatchCase.w BatchCase.q
  rw [h.query, h.m]
  rfl

theorem Swapped.width (h : B.Swapped B') : B.w = B'.h := h.symm.height.symm

theorem Swapped.value (h : B.Swapped B') {id : Nat} (hid : id < B.kinds.length) (r c : Nat) : B'.value id c r = B.value id r c := by
  have e := streamDist_symm B.π B.m B.kinds id ((B.s.drop c).take B.m) ((B'.s.drop r).take B.m)
  rw [streamDist_value _ _ _ _ hid, streamDist_value _ _ _ _ hid] at e
  unfold BatchCase.value BatchCase.q
  rw [h.query, h.query', h.m, h.π, h.kinds]
  exact (Fl.fin.inj e).symm

/-- The pairs delivered by a complete calculation. -/
theorem Any.complete (hB : B.Any idss) (hc : B.Complete) (r c : Nat) (hr : r < B.h) (hw : c < B.w) : B.done r c ↔ (B.query = none → Apart B.b r c) := by
  have h1 := C67_complete B.shuffle hB.perm B.m B.s B.query B.buffer hB.args.series hB.args.queryLen (fun h => (hB.args.bufferLen h).1) B.us hc r c hr hw
  refine h1.trans ⟨fun h2 h3 => ?_, fun h2 h3 => ?_⟩
  · have : B.b = B.buffer.getD (B.m / 2) := by unfold BatchCase.b batchBuffer; rw [h3]; rfl
    rw [this]
    exact h2 h3
  · have : B.b = B.buffer.getD (B.m / 2) := by unfold BatchCase.b batchBuffer; rw [h3]; rfl
    rw [← this]
    exact h2 h3

/-- The merged profile of a complete calculation. -/
structure ShowsNearest (B : BatchCase α) (id : Nat) (p : MP ℝ) : Prop where
  len : (MP.merged p.left p.right).length = B.w ∧ (MP.mergedIdx p.left p.right p.leftIdx p.rightIdx).length = B.w
  entries : ∀ c < B.w, ∃ (v : Fl ℝ) (i : Int), (MP.merged p.left p.right)[c]? = some v ∧ (MP.mergedIdx p.left p.right p.leftIdx p.rightIdx)[c]? = some i ∧
    IsNearest (fun r => B.value id r c) B.h (fun r => B.query = none → Apart B.b r c) v i

theorem profiles (ids : List Nat) (hB : B.Ok (ids.map fun id => [id])) (hc : B.Complete) :
    ∃ cons', B.result MP.ops (ids.map fun id => (MP.new, [id])) = .ok cons' ∧ List.Forall₂ (fun id c => c.2 = [id] ∧ B.ShowsNearest id c.1) ids cons' := by
  obtain ⟨cons', h1, h2⟩ := C67_profile_partial B.memE hB.memE B.memZ hB.memZ B.shuffle hB.perm B.π B.m B.s B.query B.nDim B.buffer B.kinds ids B.needed
    hB.args B.us B.os hB.calls hB.good
  refine ⟨cons', h1, h2.imp fun id p ⟨e1, hP⟩ => ⟨e1, ?_, fun c hw => ?_⟩⟩
  · have hl := hP.lengths
    have hent := hP.entries
    have hle : ∀ {β : Type} (l : List β), (∀ c < B.w, ∃ x, l[c]? = some x) → l.length ≤ B.w → l.length = B.w := by
      intro β l h hle
      by_contra hne
      obtain ⟨x, hx⟩ := h l.length (by omega)
      rw [List.getElem?_eq_none (le_refl _)] at hx
      cases hx
    refine ⟨hle _ (fun c hc => ?_) ?_, hle _ (fun c hc => ?_) ?_⟩
    · obtain ⟨l, r, v, li, ri, i, -, -, a3, -⟩ := hent c hc
      exact ⟨v, a3⟩
    · unfold MP.merged; simp [hl.1, BatchCase.w]
    · obtain ⟨l, r, v, li, ri, i, -, -, -, -, -, a6, -⟩ := hent c hc
      exact ⟨i, a6⟩
    · unfold MP.mergedIdx; simp [hl.1, BatchCase.w]
  · obtain ⟨l, r, v, li, ri, i, -, -, a3, -, -, a6, -, -, hv⟩ := hP.entries c hw
    refine ⟨v, i, a3, a6, ?_⟩
    rcases hv with ⟨rfl, hno⟩ | ⟨r, hr, hd, rfl, rfl, hmin⟩
    · exact .inl ⟨rfl, fun r hr h => hno r hr ((hB.complete hc r c hr hw).mpr h)⟩
    · exact .inr ⟨r, hr, (hB.complete hc r c hr hw).mp hd, rfl, rfl, fun r' hr' h => hmin r' hr' ((hB.complete hc r' c hr' hw).mpr h)⟩

end BatchCase

/-- **C104.** `DistanceMatrix` consumers (any generators) in two complete calculations with series and query exchanged hold transposed matrices. Partial,
like the theorems below: for Euclidean generators no two different subsequences at squared distance below `1e-15` if columns are calculated (`BatchCase.Ok`; `C66_euclidean_nan`). -/
theorem C104_transpose_partial (B B' : BatchCase α) (ids : List Nat) (hB : B.Ok (ids.map fun id => [id])) (hB' : B'.Ok (ids.map fun id => [id])) (hsw : B.Swapped B')
    (hc : B.Complete) (hc' : B'.Complete) :
    ∃ cons cons', B.result DM.ops (ids.map fun id => (DM.new, [id])) = .ok cons ∧ B'.result DM.ops (ids.map fun id => (DM.new, [id])) = .ok cons' ∧
      List.Forall₂ (fun c c' => c.2 = c'.2 ∧ c'.1.h = c.1.w ∧ c'.1.w = c.1.h ∧ ∀ i < c.1.h, ∀ j < c.1.w, (∃ x, c.1.m i j = .fin x) ∧ c'.1.m j i = c.1.m i j) cons cons' := by
  obtain ⟨cons, h1, h2⟩ := C68_distance_matrix_partial B ids hB
  obtain ⟨cons', h3, h4⟩ := C68_distance_matrix_partial B' ids hB'
  refine ⟨cons, cons', h1, h3, ?_⟩
  rw [forall₂_iff_getElem?] at h2 h4 ⊢
  refine ⟨h4.1.trans h2.1.symm, fun n c c' hn hn' => ?_⟩
  obtain ⟨hl, -⟩ := List.getElem?_eq_some_iff.mp hn
  obtain ⟨id, hid⟩ : ∃ id, ids[n]? = some id := ⟨ids[n]'(by rw [← h2.1]; exact hl), List.getElem?_eq_getElem _⟩
  obtain ⟨e1, e2, e3, e4⟩ := h2.2 n id c hid hn
  obtain ⟨f1, f2, f3, f4⟩ := h4.2 n id c' hid hn'
  have hlt : id < B.kinds.length := hB.id_lt (ids := [id]) (List.mem_map_of_mem (List.mem_of_getElem? hid)) (by simp)
  refine ⟨e1.trans f1.symm, by rw [f2, e3, hsw.width], by rw [f3, e2, hsw.height], fun i hi j hj => ?_⟩
  rw [e2] at hi
  rw [e3] at hj
  have g1 := (e4 i hi j hj).1 ((hB.complete hc i j hi hj).mpr fun h => by rw [hsw.query] at h; cases h)
  have hj' : j < B'.h := by rw [← hsw.width]; exact hj
  have hi' : i < B'.w := by rw [← hsw.height]; exact hi
  have g2 := (f4 j hj' i hi').1 ((hB'.complete hc' j i hj' hi').mpr fun h => by rw [hsw.query'] at h; cases h)
  refine ⟨⟨_, g1⟩, ?_⟩
  rw [g1, g2, hsw.value hlt]

/-- The match that one profile reports is, in the other profile, at most as far from its own match; `v`, `i` and `v'` are the values and indices of the one and the values of the
other. -/
def Spec.MatchesNoFurther (v : List (Fl ℝ)) (i : List Int) (v' : List (Fl ℝ)) : Prop :=
  v.length = i.length ∧ ∀ (c : Nat) (x : Fl ℝ) (r : Int), v[c]? = some x → i[c]? = some r → ∃ (n : Nat) (y : Fl ℝ), r = n ∧ v'[n]? = some y ∧ y ≤ x

theorem BatchCase.Swapped.further {B B' : BatchCase α} (hsw : B.Swapped B') {idss : List (List Nat)} (hB' : B'.Any idss) {id : Nat} (hid : id < B.kinds.length) {p p' : MP ℝ}
    (hp : B.ShowsNearest id p) (hp' : B'.ShowsNearest id p') :
    MatchesNoFurther (MP.merged p.left p.right) (MP.mergedIdx p.left p.right p.leftIdx p.rightIdx) (MP.merged p'.left p'.right) := by
  refine ⟨hp.len.1.trans hp.len.2.symm, fun c x r hx hr => ?_⟩
  have hc : c < B.w := by rw [← hp.len.1]; exact (List.getElem?_eq_some_iff.mp hx).1
  obtain ⟨v, i, g1, g2, g3⟩ := hp.entries c hc
  rw [hx] at g1; cases g1
  rw [hr] at g2; cases g2
  have hfree : ∀ {P : Prop}, B.query = none → P := fun h => by rw [hsw.query] at h; cases h
  have hfree' : ∀ {P : Prop}, B'.query = none → P := fun h => by rw [hsw.query'] at h; cases h
  rcases g3 with ⟨-, hno⟩ | ⟨n, hn, -, rfl, rfl, -⟩
  · exact absurd (fun h => hfree h) (hno 0 (by rw [hsw.height]; exact hB'.w_pos))
  · obtain ⟨y, j, f1, -, f3⟩ := hp'.entries n (by rw [← hsw.height]; exact hn)
    refine ⟨n, y, rfl, f1, ?_⟩
    have hc' : c < B'.h := by rw [← hsw.width]; exact hc
    rcases f3 with ⟨-, hno⟩ | ⟨k, -, -, rfl, -, hmin⟩
    · exact absurd (fun h => hfree' h) (hno c hc')
    · have := hmin c hc' fun h => hfree' h
      beta_reduce at this ⊢
      rw [hsw.value hid n c] at this
      simpa using this

/-- **C104** for `MatrixProfileLR`: each reported match of a subsequence of the series has, in the profile with series and query exchanged, a value that is at most as large, and the
other way around. -/
theorem C104_profiles_partial (B B' : BatchCase α) (ids : List Nat) (hB : B.Ok (ids.map fun id => [id])) (hB' : B'.Ok (ids.map fun id => [id])) (hsw : B.Swapped B')
    (hc : B.Complete) (hc' : B'.Complete) :
    ∃ cons cons', B.result MP.ops (ids.map fun id => (MP.new, [id])) = .ok cons ∧ B'.result MP.ops (ids.map fun id => (MP.new, [id])) = .ok cons' ∧
      List.Forall₂ (fun c c' => c.2 = c'.2 ∧
        MatchesNoFurther (MP.merged c.1.left c.1.right) (MP.mergedIdx c.1.left c.1.right c.1.leftIdx c.1.rightIdx) (MP.merged c'.1.left c'.1.right) ∧
        MatchesNoFurther (MP.merged c'.1.left c'.1.right) (MP.mergedIdx c'.1.left c'.1.right c'.1.leftIdx c'.1.rightIdx) (MP.merged c.1.left c.1.right)) cons cons' := by
  obtain ⟨cons, h1, h2⟩ := BatchCase.profiles ids hB hc
  obtain ⟨cons', h3, h4⟩ := BatchCase.profiles ids hB' hc'
  refine ⟨cons, cons', h1, h3, ?_⟩
  rw [forall₂_iff_getElem?] at h2 h4 ⊢
  refine ⟨h4.1.trans h2.1.symm, fun n c c' hn hn' => ?_⟩
  obtain ⟨hl, -⟩ := List.getElem?_eq_some_iff.mp hn
  obtain ⟨id, hid⟩ : ∃ id, ids[n]? = some id := ⟨ids[n]'(by rw [← h2.1]; exact hl), List.getElem?_eq_getElem _⟩
  obtain ⟨e1, e2⟩ := h2.2 n id c hid hn
  obtain ⟨f1, f2⟩ := h4.2 n id c' hid hn'
  have hlt : id < B.kinds.length := hB.id_lt (ids := [id]) (List.mem_map_of_mem (List.mem_of_getElem? hid)) (by simp)
  exact ⟨e1.trans f1.symm, hsw.further hB'.toAny hlt e2 f2, hsw.symm.further hB.toAny (by rw [hsw.kinds]; exact hlt) f2 e2⟩

/-- **C104**: the smallest entries of the two profiles are the same. -/
theorem C104_closest_partial (B B' : BatchCase α) (ids : List Nat) (hB : B.Ok (ids.map fun id => [id])) (hB' : B'.Ok (ids.map fun id => [id])) (hsw : B.Swapped B')
    (hc : B.Complete) (hc' : B'.Complete) :
    ∃ cons cons', B.result MP.ops (ids.map fun id => (MP.new, [id])) = .ok cons ∧ B'.result MP.ops (ids.map fun id => (MP.new, [id])) = .ok cons' ∧
      List.Forall₂ (fun c c' => c.2 = c'.2 ∧ ∀ x y, x ∈ MP.merged c.1.left c.1.right → (∀ x' ∈ MP.merged c.1.left c.1.right, x ≤ x') → y ∈ MP.merged c'.1.left c'.1.right →
        (∀ y' ∈ MP.merged c'.1.left c'.1.right, y ≤ y') → x = y) cons cons' := by
  obtain ⟨cons, cons', h1, h2, h3⟩ := C104_profiles_partial B B' ids hB hB' hsw hc hc'
  refine ⟨cons, cons', h1, h2, h3.imp fun c c' ⟨e1, e2, e3⟩ => ⟨e1, fun x y hx hx' hy hy' => le_antisymm ?_ ?_⟩⟩
  · obtain ⟨n, hn⟩ := List.getElem?_of_mem hy
    obtain ⟨hl, -⟩ := List.getElem?_eq_some_iff.mp hn
    obtain ⟨k, z, -, f2, f3⟩ := e3.2 n y _ hn (List.getElem?_eq_getElem (by rw [← e3.1]; exact hl))
    exact (hx' z (List.mem_of_getElem? f2)).trans f3
  · obtain ⟨n, hn⟩ := List.getElem?_of_mem hx
    obtain ⟨hl, -⟩ := List.getElem?_eq_some_iff.mp hn
    obtain ⟨k, z, -, f2, f3⟩ := e2.2 n x _ hn (List.getElem?_eq_getElem (by rw [← e2.1]; exact hl))
    exact (hy' z (List.mem_of_getElem? f2)).trans f3

/-- **C104** for self-joins: at the index reported for an entry (other than `+inf`) the profile is at most as large as that entry. -/
theorem C104_self_join_partial (B : BatchCase α) (ids : List Nat) (hB : B.Ok (ids.map fun id => [id])) (hself : B.query = none) (hc : B.Complete) :
    ∃ cons, B.result MP.ops (ids.map fun id => (MP.new, [id])) = .ok cons ∧
      List.Forall₂ (fun id c => c.2 = [id] ∧ ∀ (n : Nat) (x : Fl ℝ) (i : Int), (MP.merged c.1.left c.1.right)[n]? = some x →
        (MP.mergedIdx c.1.left c.1.right c.1.leftIdx c.1.rightIdx)[n]? = some i → x ≠ .pinf →
        ∃ (k : Nat) (y : Fl ℝ), i = k ∧ Apart B.b k n ∧ (MP.merged c.1.left c.1.right)[k]? = some y ∧ y ≤ x) ids cons := by
  obtain ⟨cons, h1, h2⟩ := BatchCase.profiles ids hB hc
  refine ⟨cons, h1, ?_⟩
  rw [forall₂_iff_getElem?] at h2 ⊢
  refine ⟨h2.1, fun n id c hn hp => ?_⟩
  obtain ⟨e1, e2⟩ := h2.2 n id c hn hp
  have hid : id < B.kinds.length := hB.id_lt (ids := [id]) (List.mem_map_of_mem (List.mem_of_getElem? hn)) (by simp)
  have hhw : B.h = B.w := by unfold BatchCase.h BatchCase.w BatchCase.q; rw [hself]; rfl
  refine ⟨e1, fun j x i hx hi hne => ?_⟩
  have hj : j < B.w := by rw [← e2.len.1]; exact (List.getElem?_eq_some_iff.mp hx).1
  obtain ⟨v, i', g1, g2, g3⟩ := e2.entries j hj
  rw [hx] at g1; cases g1
  rw [hi] at g2; cases g2
  rcases g3 with ⟨rfl, -⟩ | ⟨k, hk, hap, rfl, rfl, -⟩
  · exact absurd rfl hne
  · obtain ⟨y, j', f1, -, f3⟩ := e2.entries k (by rw [← hhw]; exact hk)
    refine ⟨k, y, rfl, hap hself, f1, ?_⟩
    have hsym : B.query = none → Apart B.b j k := fun h => by have := hap h; unfold Apart at this ⊢; rw [abs_sub_comm]; exact this
    rcases f3 with ⟨-, hno⟩ | ⟨r, -, -, rfl, -, hmin⟩
    · exact absurd hsym (hno j (by rw [hhw]; exact hj))
    · have := hmin j (by rw [hhw]; exact hj) hsym
      beta_reduce at this ⊢
      rw [B.value_symm hself hid j k] at this
      simpa using this

/-! ### Concrete cases -/

/-- A query of three frames on a series of five, all diagonals in one call. -/
noncomputable def exJoin : BatchCase (ℤ × ℤ) where
  memE := fun n => List.replicate n .nan
  memZ := ZN.zeroMem
  shuffle := List.reverse
  π := exChan
  m := 2
  s := [(1, 2), (5, 0), (2, 7), (8, 1), (3, 3)]
  query := some [(4, 1), (4, 6), (7, 2)]
  nDim := 2
  buffer := none
  kinds := exKinds
  needed := [0, 2]
  us := [.diagonals 5]
  os := [.diagonals (fun _ => false) (.int 100)]

/-- The same with series and query exchanged, the diagonals in two calls and another order. -/
noncomputable def exJoin' : BatchCase (ℤ × ℤ) where
  memE := fun n => List.replicate n .pinf
  memZ := ZN.zeroMem
  shuffle := id
  π := exChan
  m := 2
  s := [(4, 1), (4, 6), (7, 2)]
  query := some [(1, 2), (5, 0), (2, 7), (8, 1), (3, 3)]
  nDim := 2
  buffer := none
  kinds := exKinds
  needed := [2, 0]
  us := [.diagonals 2, .diagonals 5]
  os := [.diagonals (fun n => n == 2) (.int 100), .diagonals (fun _ => false) (.int 100)]

theorem exJoin_order : exJoin.order = [3, 2, 1, 0, -1] := rfl

theorem exJoin'_order : exJoin'.order = [-3, -2, -1, 0, 1] := rfl

theorem exJoin_args {idss : List (List Nat)} (h : ∀ ids ∈ idss, ∀ id ∈ ids, id = 0 ∨ id = 2) (h0 : ∃ ids ∈ idss, 0 ∈ ids) (h2 : ∃ ids ∈ idss, 2 ∈ ids) (B : BatchCase (ℤ × ℤ))
    (hB : B = exJoin ∨ B = exJoin') : BatchArgs B.m B.s B.query B.nDim B.buffer B.kinds idss B.needed := by
  have hk : B.kinds = exKinds := by rcases hB with rfl | rfl <;> rfl
  have hn : B.needed.Nodup ∧ ∀ id, id ∈ B.needed ↔ id = 0 ∨ id = 2 := by
    rcases hB with rfl | rfl
    · exact ⟨by decide, fun id => by simp [exJoin]⟩
    · exact ⟨by decide, fun id => by simp [exJoin']; omega⟩
  refine ⟨?_, ?_, ?_, ?_, ?_, ?_, ?_, hn.1, ?_⟩
  · rcases hB with rfl | rfl <;> decide
  · rcases hB with rfl | rfl <;> decide
  · rcases hB with rfl | rfl <;> simp [exJoin, exJoin']
  · rcases hB with rfl | rfl <;> decide
  · rcases hB with rfl | rfl <;> simp [exJoin, exJoin']
  · rw [hk]
    rcases hB with rfl | rfl <;> simp [exJoin, exJoin', exKinds]
  · intro ids h3 id h4
    rw [hk]
    rcases h ids h3 id h4 with rfl | rfl <;> simp [exKinds]
  · intro id
    rw [hn.2]
    constructor
    · rintro (rfl | rfl)
      · exact h0
      · exact h2
    · rintro ⟨ids, h3, h4⟩
      exact h ids h3 id h4

theorem exJoin_calls : AreBatchCalls 2 3 5 [3, 2, 1, 0, -1] BSt.init [.diagonals 5] [.diagonals (fun _ => false) (.int 100)] := by
  refine ⟨⟨100, .inl rfl, by decide, by decide, ?_, .inl rfl⟩, trivial⟩
  intro k _ hk
  have : k = 0 ∨ k = 1 ∨ k = 2 ∨ k = 3 ∨ k = 4 := by omega
  rcases this with rfl | rfl | rfl | rfl | rfl <;> exact ⟨by decide, rfl⟩

theorem exJoin_ok {idss : List (List Nat)} (h : ∀ ids ∈ idss, ∀ id ∈ ids, id = 0 ∨ id = 2) (h0 : ∃ ids ∈ idss, 0 ∈ ids) (h2 : ∃ ids ∈ idss, 2 ∈ ids) : exJoin.Ok idss where
  memE := fun n => List.length_replicate
  memZ := ZN.zeroMem_ok
  perm := List.reverse_perm
  args := exJoin_args h h0 h2 _ (.inl rfl)
  calls := exJoin_calls
  good := fun ⟨a, c, _, hac⟩ => by simp [exJoin] at hac

theorem exJoin'_calls : AreBatchCalls 2 5 3 [-3, -2, -1, 0, 1] BSt.init [.diagonals 2, .diagonals 5] [.diagonals (fun n => n == 2) (.int 100), .diagonals (fun _ => false) (.int 100)] := by
  refine ⟨⟨100, .inl rfl, by decide, by decide, ?_, .inr (.inr rfl)⟩, ⟨100, .inl rfl, by decide, by decide, ?_, .inl rfl⟩, trivial⟩
  · intro k _ hk
    have : k = 0 ∨ k = 1 := by omega
    rcases this with rfl | rfl <;> exact ⟨by decide, rfl⟩
  · intro k h1 hk
    have h1 : 2 ≤ k := h1
    have : k = 2 ∨ k = 3 ∨ k = 4 := by omega
    rcases this with rfl | rfl | rfl <;> exact ⟨by decide, rfl⟩

theorem exJoin'_ok {idss : List (List Nat)} (h : ∀ ids ∈ idss, ∀ id ∈ ids, id = 0 ∨ id = 2) (h0 : ∃ ids ∈ idss, 0 ∈ ids) (h2 : ∃ ids ∈ idss, 2 ∈ ids) : exJoin'.Ok idss where
  memE := fun n => List.length_replicate
  memZ := ZN.zeroMem_ok
  perm := List.Perm.refl
  args := exJoin_args h h0 h2 _ (.inr rfl)
  calls := exJoin'_calls
  good := fun ⟨a, c, _, hac⟩ => by simp [exJoin'] at hac

theorem exJoin_swapped : exJoin.Swapped exJoin' := ⟨rfl, rfl, rfl, rfl, rfl⟩

/-- Consumers of a z-normalised and a Euclidean generator. -/
example := C104_transpose_partial exJoin exJoin' [2, 0] (exJoin_ok (by simp) (by simp) (by simp)) (exJoin'_ok (by simp) (by simp) (by simp)) exJoin_swapped rfl rfl

example := C104_profiles_partial exJoin exJoin' [2, 0] (exJoin_ok (by simp) (by simp) (by simp)) (exJoin'_ok (by simp) (by simp) (by simp)) exJoin_swapped rfl rfl

example := C104_closest_partial exJoin exJoin' [2, 0] (exJoin_ok (by simp) (by simp) (by simp)) (exJoin'_ok (by simp) (by simp) (by simp)) exJoin_swapped rfl rfl

example := C104_self_join_partial exBatch [2, 0] (exBatch_ok (by simp) (by simp) (by simp)) rfl rfl

end Verif
