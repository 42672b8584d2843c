import Verif.Props.BatchMatrix

/-!
# C74: the smallest entry of a self-join matrix profile is the closest pair
-/

namespace Verif
open Spec
variable {α : Type}

/-- What one reads off a matrix profile `v` with indices `i` of `w` subsequences: wherever an entry is smallest, the subsequence and the one its index points to
are a pair further apart than the buffer, no such pair is closer, and the other member shows the same distance. -/
def Spec.ShowsMotif (value : Nat → Nat → ℝ) (b : Int) (w : Nat) (v : List (Fl ℝ)) (idx : List Int) : Prop :=
  v.length = w ∧ idx.length = w ∧
  ∀ (c : Nat) (x : Fl ℝ) (i : Int), v[c]? = some x → idx[c]? = some i → (∀ x' ∈ v, x ≤ x') →
    ∃ r : Nat, i = r ∧ r < w ∧ Apart b r c ∧ x = .fin (value r c) ∧ v[r]? = some x ∧
      ∀ r' < w, ∀ c' < w, Apart b r' c' → value r c ≤ value r' c'

theorem BatchCase.value_symm (B : BatchCase α) (hself : B.query = none) {id : Nat} (hid : id < B.kinds.length) (r c : Nat) : B.value id r c = B.value id c r := by
  have h := streamDist_symm B.π B.m B.kinds id ((B.s.drop c).take B.m) ((B.s.drop r).take B.m)
  rw [streamDist_value _ _ _ _ hid, streamDist_value _ _ _ _ hid] at h
  unfold BatchCase.value BatchCase.q
  rw [hself]
  exact Fl.fin.inj h

/-- A self-join with any channels and generators, `MatrixProfileLR` consumers, after any calls by which all diagonals got calculated, provided the buffer
leaves any pair at all; `B.Ok` asks for `NoTiny` if columns are calculated with Euclidean generators. -/
theorem motif_of_ok (B : BatchCase α) (ids : List Nat) (hB : B.Ok (ids.map fun id => [id])) (hself : B.query = none) (hroom : B.b + 1 < B.w)
    (hdone : (B.us.foldl BSt.step BSt.init).next = B.order.length) :
    ∃ cons', B.result MP.ops (ids.map fun id => (MP.new, [id])) = .ok cons' ∧
      List.Forall₂ (fun id c => c.2 = [id] ∧ ShowsMotif (B.value id) B.b B.w (MP.merged c.1.left c.1.right)
        (MP.mergedIdx c.1.left c.1.right c.1.leftIdx c.1.rightIdx)) ids cons' := by
  obtain ⟨cons', h1, h2⟩ := C67_profile_partial B.memE hB.memE B.memZ hB.memZ B.shuffle hB.perm B.π B.m B.s B.query B.nDim B.buffer B.kinds ids B.needed
    hB.args B.us B.os hB.calls hB.good
  refine ⟨cons', h1, ?_⟩
  rw [forall₂_iff_getElem?] at h2 ⊢
  refine ⟨h2.1, fun n id p hn hp => ?_⟩
  obtain ⟨e1, hP⟩ := h2.2 n id p hn hp
  have hid : id < B.kinds.length := hB.id_lt (ids := [id]) (List.mem_map_of_mem (List.mem_of_getElem? hn)) (by simp)
  have hq : B.query.getD B.s = B.s := by rw [hself]; rfl
  have hb : B.b = B.buffer.getD (B.m / 2) := by unfold BatchCase.b batchBuffer; rw [hself]; rfl
  have hb1 : -1 ≤ B.b := (batchBuffer_ge hB.args).1
  -- the pairs calculated
  have hcov : ∀ r c, r < B.w → c < B.w → (B.done r c ↔ Apart B.b r c) := by
    intro r c hr hc
    have := C67_complete B.shuffle hB.perm B.m B.s B.query B.buffer hB.args.series hB.args.queryLen (fun h => (hB.args.bufferLen h).1) B.us hdone r c
      (by rw [hq]; exact hr) hc
    rw [hb]
    exact this.trans ⟨fun h => h hself, fun h _ => h⟩
  -- the entries
  have hent : ∀ c < B.w, ∃ (v : Fl ℝ) (i : Int), (MP.merged p.1.left p.1.right)[c]? = some v ∧ (MP.mergedIdx p.1.left p.1.right p.1.leftIdx p.1.rightIdx)[c]? = some i ∧
      IsNearest (fun r => B.value id r c) B.w (fun r => Apart B.b r c) v i := by
    intro c hc
    obtain ⟨l, r, v, li, ri, i, -, -, a3, -, -, a6, -, -, hv⟩ := hP.entries c hc
    refine ⟨v, i, a3, a6, ?_⟩
    rw [hq] at hv
    rcases hv with ⟨rfl, hno⟩ | ⟨r, hr, hd, rfl, rfl, hmin⟩
    · exact .inl ⟨rfl, fun r hr h => hno r hr ((hcov r c hr hc).mpr h)⟩
    · have hval : ∀ r, streamValue B.π B.m B.kinds id ((B.s.drop c).take B.m) ((B.s.drop r).take B.m) = B.value id r c := by
        intro r; unfold BatchCase.value BatchCase.q; rw [hq]
      refine .inr ⟨r, hr, (hcov r c hr hc).mp hd, congrArg Fl.fin (hval r), rfl, fun r' hr' h => ?_⟩
      have := hmin r' hr' ((hcov r' c hr' hc).mpr h)
      exact (hval r).symm.le.trans (this.trans (hval r').le)
  have hlen : (MP.merged p.1.left p.1.right).length = B.w ∧ (MP.mergedIdx p.1.left p.1.right p.1.leftIdx p.1.rightIdx).length = B.w := by
    have hle : ∀ {β : Type} (l : List β), (∀ c < B.w, ∃ x, l[c]? = some x) → l.length ≤ B.w → l.length = B.w := by
      intro β l h hle
      by_contra hne
      obtain ⟨x, hx⟩ := h l.length (by omega)
      rw [List.getElem?_eq_none (le_refl _)] at hx
      cases hx
    have hl := hP.lengths.1
    refine ⟨hle _ (fun c hc => (hent c hc).imp fun v h => h.choose_spec.1) ?_, hle _ (fun c hc => ?_) ?_⟩
    · unfold MP.merged; simp [hl, BatchCase.w]
    · obtain ⟨v, i, -, h, -⟩ := hent c hc; exact ⟨i, h⟩
    · unfold MP.mergedIdx; simp [hl, BatchCase.w]
  refine ⟨e1, hlen.1, hlen.2, ?_⟩
  intro c x i hx hi hmin
  have hc : c < B.w := by rw [← hlen.1]; exact (List.getElem?_eq_some_iff.mp hx).1
  -- every entry is at least `x`
  have hall : ∀ r' < B.w, ∀ c' < B.w, Apart B.b r' c' → x ≤ .fin (B.value id r' c') := by
    intro r' hr' c' hc' ha
    obtain ⟨v, i', g1, -, hv⟩ := hent c' hc'
    refine (hmin v (List.mem_of_getElem? g1)).trans ?_
    rcases hv with ⟨-, hno⟩ | ⟨r, -, -, rfl, -, hle⟩
    · exact absurd ha (hno r' hr')
    · have := hle r' hr' ha
      simpa using this
  obtain ⟨v, i', g1, g2, hv⟩ := hent c hc
  rw [hx] at g1; cases g1
  rw [hi] at g2; cases g2
  rcases hv with ⟨rfl, -⟩ | ⟨r, hr, hra, rfl, rfl, -⟩
  · exfalso
    have h0 : (B.b + 1).toNat < B.w := by omega
    have := hall 0 hB.w_pos (B.b + 1).toNat h0 (by
      show B.b < |((0 : Nat) : Int) - ((B.b + 1).toNat : Int)|
      rw [Int.toNat_of_nonneg (by omega), abs_sub_comm]
      have := le_abs_self (B.b + 1 - ((0 : Nat) : Int))
      push_cast at this ⊢
      omega)
    exact absurd (Fl.fin_lt_pinf (B.value id 0 (B.b + 1).toNat)) (not_lt.mpr this)
  · have hfin : ∀ r' < B.w, ∀ c' < B.w, Apart B.b r' c' → B.value id r c ≤ B.value id r' c' := by
      intro r' hr' c' hc' ha
      have := hall r' hr' c' hc' ha
      simpa using this
    refine ⟨r, rfl, hr, hra, rfl, ?_, hfin⟩
    obtain ⟨v, i', g1, -, hv⟩ := hent r hr
    have hsym : Apart B.b c r := by unfold Apart at hra ⊢; rw [abs_sub_comm]; exact hra
    rw [g1]
    rcases hv with ⟨-, hno⟩ | ⟨y, hy, hya, rfl, -, hle⟩
    · exact absurd hsym (hno c hc)
    · have h3 : B.value id y r ≤ B.value id c r := hle c hc hsym
      rw [B.value_symm hself hid c r] at h3
      exact congrArg (fun z => some (Fl.fin z)) (le_antisymm h3 (hfin y hy r hr hya))

/-- **C74.** A self-join with any channels and generators and `MatrixProfileLR` consumers, all diagonals calculated by any (partial, interrupted) calls of
`calculate_diagonals`: no condition on the data but that the buffer leaves any pair at all. -/
theorem C74_motif (B : BatchCase α) (ids : List Nat) (memE : ∀ n, (B.memE n).length = n) (memZ : B.memZ.Ok) (perm : ∀ l, (B.shuffle l).Perm l)
    (args : BatchArgs B.m B.s B.query B.nDim B.buffer B.kinds (ids.map fun id => [id]) B.needed)
    (calls : AreBatchCalls B.m B.q.length B.s.length B.order BSt.init B.us B.os) (hself : B.query = none) (hroom : B.b + 1 < B.w)
    (hcols : ∀ a c, .columns a c ∉ B.us) (hdone : (B.us.foldl BSt.step BSt.init).next = B.order.length) :
    ∃ cons', B.result MP.ops (ids.map fun id => (MP.new, [id])) = .ok cons' ∧
      List.Forall₂ (fun id c => c.2 = [id] ∧ ShowsMotif (B.value id) B.b B.w (MP.merged c.1.left c.1.right)
        (MP.mergedIdx c.1.left c.1.right c.1.leftIdx c.1.rightIdx)) ids cons' :=
  motif_of_ok B ids ⟨⟨memE, memZ, perm, args, calls⟩, fun ⟨a, c, _, h⟩ => absurd h (hcols a c)⟩ hself hroom hdone

/-- C74 on a concrete calculation: two channels, the consumers ask for a z-normalised and a Euclidean generator; an interrupt, a column, the rest. -/
example : ∃ a b : MP ℝ, exBatch.result MP.ops [(MP.new, [2]), (MP.new, [0])] = .ok [(a, [2]), (b, [0])] ∧
    ShowsMotif (exBatch.value 2) 0 4 (MP.merged a.left a.right) (MP.mergedIdx a.left a.right a.leftIdx a.rightIdx) ∧
    ShowsMotif (exBatch.value 0) 0 4 (MP.merged b.left b.right) (MP.mergedIdx b.left b.right b.leftIdx b.rightIdx) := by
  obtain ⟨cons', h1, h2⟩ := motif_of_ok exBatch [2, 0] (exBatch_ok (by simp) (by simp) (by simp)) rfl (by decide) (by decide)
  match cons', h1, h2 with
  | [(a, _), (b, _)], h1, .cons ⟨rfl, ha⟩ (.cons ⟨rfl, hb⟩ .nil) => exact ⟨a, b, h1, ha, hb⟩

/-- A profile of squared distances: every subsequence has a neighbour at 2. -/
example : (batchAll (MP.ops (Eucl.genOps zeroMem (fun x : ℚ => x))) List.reverse [(Eucl.prepare zeroMem, 0)]
      [(MP.new, [0])] [0] 2 [[.fin 1, .fin 5, .fin 2, .fin 6, .fin 3]] none (some 0) [.diagonals (fun _ => false) (.float (.fin 1))]).map
        (fun l => l.map fun x => (MP.merged x.1.left x.1.right, MP.mergedIdx x.1.left x.1.right x.1.leftIdx x.1.rightIdx)) =
    .ok [([.fin 2, .fin 2, .fin 2, .fin 2], [2, 3, 0, 1])] := by
  decide +kernel

/-- `C74_motif`: all diagonals in one call. -/
example := have h := exBatch_ok (idss := [[2], [0]]) (by simp) (by simp) (by simp)
  C74_motif {exBatch with us := [.diagonals 3], os := [.diagonals (fun _ => false) (.int 100)]} [2, 0] h.memE h.memZ h.perm h.args
    ⟨⟨100, .inl rfl, by decide, by decide, (fun k _ hk => ⟨by decide +revert, rfl⟩), .inl rfl⟩, trivial⟩ rfl (by decide) (by simp) rfl

end Verif
