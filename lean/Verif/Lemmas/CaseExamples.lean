import Verif.Lemmas.Cases

/-!
# Concrete cases for the theorems about consumers

A batch calculation and a stream with two channels, three generators, partial and interrupted calls, that meet `BatchCase.Ok` and `StreamCase.Ok`.
-/

namespace Verif
open Spec

/-- Two consumers of the generators 2 and 0 of `exKinds`; the diagonals 3 and 2 before an interrupt, then column 1, then diagonal 1. -/
noncomputable def exBatch : BatchCase (ℤ × ℤ) where
  memE := fun n => List.replicate n .nan
  memZ := ZN.zeroMem
  shuffle := List.reverse
  π := exChan
  m := 2
  s := [(1, 2), (5, 0), (2, 7), (8, 1), (3, 3)]
  query := none
  nDim := 2
  buffer := some 0
  kinds := exKinds
  needed := [0, 2]
  us := [.diagonals 2, .columns 1 2, .diagonals 3]
  os := [.diagonals (fun n => n == 2) (.float (.fin 1)), .columns (fun _ => false) (some (.int 1)) (.int 2), .diagonals (fun _ => false) (.int 100)]

theorem exBatch_calls : AreBatchCalls 2 5 5 [3, 2, 1] BSt.init [.diagonals 2, .columns 1 2, .diagonals 3]
      [.diagonals (fun n => n == 2) (.float (.fin 1)), .columns (fun _ => false) (some (.int 1)) (.int 2), .diagonals (fun _ => false) (.int 100)] := by
  have hv : valuesUpto 2 5 5 [3, 2, 1] 3 = 6 := rfl
  refine ⟨⟨6, .inr ⟨1, rfl, by norm_num, by norm_num, ?_⟩, by decide, by decide, ?_, .inr (.inr rfl)⟩,
    ⟨1, 2, .inr ⟨_, rfl, .inl rfl⟩, by decide, .inl rfl, by simp, .inl (by decide)⟩, ⟨100, .inl rfl, by decide, by decide, ?_, .inl rfl⟩, trivial⟩
  · simp only [List.length_cons, List.length_nil, hv]
    norm_num
  · intro k _ hk
    have : k = 0 ∨ k = 1 := by omega
    rcases this with rfl | rfl <;> exact ⟨by decide, rfl⟩
  · intro k h1 hk
    have h1 : 2 ≤ k := h1
    have : k = 2 := by omega
    subst this
    exact ⟨by decide, rfl⟩

theorem exBatch_order : exBatch.order = [3, 2, 1] := rfl

theorem exBatch_ok {idss : List (List Nat)} (h : ∀ ids ∈ idss, ∀ id ∈ ids, id = 0 ∨ id = 2) (h0 : ∃ ids ∈ idss, 0 ∈ ids) (h2 : ∃ ids ∈ idss, 2 ∈ ids) : exBatch.Ok idss where
  memE := fun n => List.length_replicate
  memZ := ZN.zeroMem_ok
  perm := List.reverse_perm
  args := by
    refine ⟨by decide, by decide, by simp [exBatch], by decide, by simp [exBatch], ?_, ?_, by decide, ?_⟩
    · simp [exBatch, exKinds]
    · intro ids h3 id h4
      rcases h ids h3 id h4 with rfl | rfl <;> simp [exBatch, exKinds]
    · intro id
      constructor
      · intro h3
        have : id = 0 ∨ id = 2 := by simpa [exBatch] using h3
        rcases this with rfl | rfl
        · exact h0
        · exact h2
      · rintro ⟨ids, h3, h4⟩
        rcases h ids h3 id h4 with rfl | rfl <;> simp [exBatch]
  calls := exBatch_calls
  good := by
    intro _ g hg
    simp only [exBatch, exKinds, List.mem_cons, List.not_mem_nil, or_false] at hg
    rcases hg with rfl | rfl | rfl
    · refine noTiny_int _ _ _ ?_ ?_ <;>
      · intro x hx
        obtain ⟨z, -, rfl⟩ := List.mem_map.mp hx
        exact ⟨z.2, by simp [exBatch, exChan]⟩
    · trivial
    · trivial

/-- Consumers of the generators 2 and 0 of `exKinds` with windows of 4 and 3 frames; one call is interrupted. -/
noncomputable def exStreamCase : StreamCase (ℤ × ℤ) where
  memE := fun n => List.replicate n .nan
  memZ := ZN.zeroMem
  π := exChan
  m := 2
  N := 4
  M := some 3
  nDim := 2
  buffer := none
  kinds := exKinds
  needed := [0, 2]
  us := exFrames
  os := exFrameCalls

theorem exStreamCase_ok {idss : List (List Nat)} (h : ∀ ids ∈ idss, ∀ id ∈ ids, id = 0 ∨ id = 2) (h0 : ∃ ids ∈ idss, 0 ∈ ids) (h2 : ∃ ids ∈ idss, 2 ∈ ids) : exStreamCase.Ok idss where
  memE := fun n => List.length_replicate
  memZ := ZN.zeroMem_ok
  args := by
    refine ⟨by decide, by decide, by simp [exStreamCase], by simp [exStreamCase], ?_, ?_, ?_, by decide, ?_⟩
    · simp [exStreamCase, exKinds, GenKind.ScaleOk]; norm_num
    · simp [exStreamCase, exKinds]
    · intro ids h3 id h4
      rcases h ids h3 id h4 with rfl | rfl <;> simp [exStreamCase, exKinds]
    · intro id
      constructor
      · intro h3
        have : id = 0 ∨ id = 2 := by simpa [exStreamCase] using h3
        rcases this with rfl | rfl
        · exact h0
        · exact h2
      · rintro ⟨ids, h3, h4⟩
        rcases h ids h3 id h4 with rfl | rfl <;> simp [exStreamCase]
  calls := by
    show AreCalls 2 exChan 2 4 (some 3) MSt.init exFrames exFrameCalls
    refine ⟨⟨1, .inr ⟨1 / 3, rfl, by norm_num, by norm_num, by norm_num⟩, by simp, .inl rfl⟩, .inl ?_, .inl ?_,
      ⟨3, .inr ⟨1, rfl, by norm_num, by norm_num, by norm_num⟩, ?_, .inr ⟨by simp [MSt.step, MSt.init, lastN], by omega, rfl⟩⟩, .inr ⟨(9, 9), rfl, ?_⟩,
      ⟨3, .inl rfl, by simp, .inl rfl⟩, .inr ⟨(0, 5), rfl, ?_⟩, ⟨3, .inl rfl, ?_, .inl rfl⟩, trivial⟩
    · simp [exChan, List.range_succ]
    · simp [exChan, List.range_succ]
    · intro c _ h; simp; omega
    · simp [exChan, List.range_succ]
    · simp [exChan, List.range_succ]
    · intro c h1 h2
      simp [MSt.step, MSt.init, lastN] at h1
      omega
  valid := by
    refine ⟨?_, ?_, ?_, ?_, ?_, ?_, ?_, ?_, trivial⟩ <;> simp [MSt.Valid, MSt.step, MSt.init, exStreamCase]
  good := by
    have key : ∀ s q : List (ℤ × ℤ), ∀ g ∈ exKinds, g.1.Good 2 (lastN 4 (s.map (exChan g.2))) (lastN 3 (q.map (exChan g.2))) := by
      intro s q g hg
      simp only [exKinds, List.mem_cons, List.not_mem_nil, or_false] at hg
      rcases hg with rfl | rfl | rfl
      · refine noTiny_int _ _ _ ?_ ?_ <;>
        · intro x hx
          obtain ⟨z, -, rfl⟩ := List.mem_map.mp (List.mem_of_mem_drop (by simpa [lastN] using hx))
          exact ⟨z.2, by simp [exChan]⟩
      · trivial
      · trivial
    exact ⟨fun _ _ => key _ _, fun _ _ => key _ _, fun _ _ => key _ _, fun _ _ => key _ _, fun _ _ => key _ _, fun _ _ => key _ _, fun _ _ => key _ _,
      fun _ _ => key _ _, trivial⟩

/-- Only the first of the calls of `exBatch`. -/
noncomputable def exBatchDiagonals : BatchCase (ℤ × ℤ) := {exBatch with us := [.diagonals 2], os := [.diagonals (fun n => n == 2) (.float (.fin 1))]}

theorem exBatchDiagonals_ok {idss : List (List Nat)} (h : ∀ ids ∈ idss, ∀ id ∈ ids, id = 0 ∨ id = 2) (h0 : ∃ ids ∈ idss, 0 ∈ ids) (h2 : ∃ ids ∈ idss, 2 ∈ ids) :
    exBatchDiagonals.Ok idss :=
  have h := exBatch_ok h h0 h2
  ⟨⟨h.memE, h.memZ, h.perm, h.args, ⟨exBatch_calls.1, trivial⟩⟩, by rintro ⟨a, c, -, h⟩; simp [exBatchDiagonals] at h⟩

/-- Only the second of the calls of `exBatch`. -/
noncomputable def exBatchColumns : BatchCase (ℤ × ℤ) := {exBatch with us := [.columns 1 2], os := [.columns (fun _ => false) (some (.int 1)) (.int 2)]}

theorem exBatchColumns_ok {idss : List (List Nat)} (h : ∀ ids ∈ idss, ∀ id ∈ ids, id = 0 ∨ id = 2) (h0 : ∃ ids ∈ idss, 0 ∈ ids) (h2 : ∃ ids ∈ idss, 2 ∈ ids) :
    exBatchColumns.Ok idss :=
  have h := exBatch_ok h h0 h2
  ⟨⟨h.memE, h.memZ, h.perm, h.args, ⟨⟨1, 2, .inr ⟨_, rfl, .inl rfl⟩, by decide, .inl rfl, by simp, .inl (by decide)⟩, trivial⟩⟩,
    fun _ => h.good ⟨1, 2, by omega, by simp [exBatch]⟩⟩

/-- `exBatch` meets the hypotheses of `C66_recorded_partial`. -/
example := have h := exBatch_ok (idss := [[0, 2], [2]]) (by simp) (by simp) (by simp)
  C66_recorded_partial exBatch.memE h.memE exBatch.memZ h.memZ exBatch.shuffle h.perm exBatch.π exBatch.m exBatch.s exBatch.query exBatch.nDim exBatch.buffer exBatch.kinds [[0, 2], [2]]
    exBatch.needed h.args exBatch.us exBatch.os h.calls h.good

/-- `C66_batch_feed_partial` with consumers that note their calls. -/
example := have h := exBatch_ok (idss := [[0, 2], [2]]) (by simp) (by simp) (by simp)
  C66_batch_feed_partial exBatch.memE h.memE exBatch.memZ h.memZ (recorder (GenKind.ops exBatch.memE exBatch.memZ)) rfl exBatch.shuffle h.perm exBatch.π exBatch.m exBatch.s exBatch.query
    exBatch.nDim exBatch.buffer exBatch.kinds [([], [0, 2]), ([], [2])] [([], [0, 2]), ([], [2])] [(exBatch.events [0, 2], [0, 2]), (exBatch.events [2], [2])] exBatch.needed h.args
    (.cons ⟨rfl, rfl⟩ (.cons ⟨rfl, rfl⟩ .nil)) exBatch.us exBatch.os h.calls h.good (by
      exact .cons ⟨rfl, by rw [recorder_feed]; rfl⟩ (.cons ⟨rfl, by rw [recorder_feed]; rfl⟩ .nil))

/-- `C66_batch_feed_diagonals` with the first call of `exBatch`. -/
example := have h := exBatchDiagonals_ok (idss := [[0, 2], [2]]) (by simp) (by simp) (by simp)
  C66_batch_feed_diagonals exBatch.memE h.memE exBatch.memZ h.memZ (recorder (GenKind.ops exBatch.memE exBatch.memZ)) rfl exBatch.shuffle h.perm exBatch.π exBatch.m exBatch.s exBatch.query
    exBatch.nDim exBatch.buffer exBatch.kinds [([], [0, 2]), ([], [2])] [([], [0, 2]), ([], [2])] [(exBatchDiagonals.events [0, 2], [0, 2]), (exBatchDiagonals.events [2], [2])] exBatch.needed
    h.args (.cons ⟨rfl, rfl⟩ (.cons ⟨rfl, rfl⟩ .nil)) [2] exBatchDiagonals.os h.calls
    (.cons ⟨rfl, by rw [recorder_feed]; rfl⟩ (.cons ⟨rfl, by rw [recorder_feed]; rfl⟩ .nil))

/-- `C66_batch_feed_znorm` with the calls of `exBatch` and the last two of its generators. -/
example := have h := exBatch_ok (idss := [[0, 2]]) (by simp) (by simp) (by simp)
  C66_batch_feed_znorm exBatch.memE h.memE exBatch.memZ h.memZ (recorder (GenKind.ops exBatch.memE exBatch.memZ)) rfl exBatch.shuffle h.perm exBatch.π exBatch.m exBatch.s exBatch.query
    exBatch.nDim exBatch.buffer [(.znorm 0 (3 / 2), 0), (.znorm (1 / 10) 1, 1)] (by simp) [([], [1, 0])] [([], [1, 0])]
    [(({exBatch with kinds := [(.znorm 0 (3 / 2), 0), (.znorm (1 / 10) 1, 1)]} : BatchCase (ℤ × ℤ)).events [1, 0], [1, 0])] [0, 1]
    ⟨h.args.pos, h.args.series, h.args.queryLen, h.args.dims, h.args.bufferLen, by simp [exBatch], by simp, by decide, by simp; omega⟩ (.cons ⟨rfl, rfl⟩ .nil) exBatch.us exBatch.os h.calls
    (.cons ⟨rfl, by rw [recorder_feed]; rfl⟩ .nil)

/-- `C66_calls` with calls of which one is interrupted. -/
example := C66_calls 2 5 5 [3, 2, 1] exBatch.os (by
  intro o ho
  simp only [exBatch, List.mem_cons, List.not_mem_nil, or_false] at ho
  rcases ho with rfl | rfl | rfl
  · exact .inr ⟨1, rfl, by norm_num, by norm_num⟩
  · exact ⟨fun s hs => by cases hs; exact .inl ⟨1, rfl⟩, .inl ⟨2, rfl⟩⟩
  · exact .inl ⟨100, rfl⟩)

/-- `C67_profile_partial`. -/
example := have h := exBatch_ok (idss := [[2], [0]]) (by simp) (by simp) (by simp)
  C67_profile_partial exBatch.memE h.memE exBatch.memZ h.memZ exBatch.shuffle h.perm exBatch.π exBatch.m exBatch.s exBatch.query exBatch.nDim exBatch.buffer exBatch.kinds [2, 0]
    exBatch.needed h.args exBatch.us exBatch.os h.calls h.good

/-- `C67_complete`: all three diagonals are calculated at the end. -/
example := C67_complete exBatch.shuffle List.reverse_perm exBatch.m exBatch.s exBatch.query exBatch.buffer (by decide) (by simp [exBatch]) (by simp [exBatch]) exBatch.us rfl 3 1 (by decide) (by decide)

/-- `C67_monotone`: the profile of generator 2 after the first call and after all calls. -/
example : ∃ p p' : MP ℝ, ∀ c < 4, ∃ v v', (MP.merged p.left p.right)[c]? = some v ∧ (MP.merged p'.left p'.right)[c]? = some v' ∧ v' ≤ v := by
  have h := exBatch_ok (idss := [[2], [0]]) (by simp) (by simp) (by simp)
  have h' := exBatchDiagonals_ok (idss := [[2], [0]]) (by simp) (by simp) (by simp)
  obtain ⟨cons, -, k⟩ := C67_profile_partial exBatchDiagonals.memE h'.memE exBatchDiagonals.memZ h'.memZ exBatchDiagonals.shuffle h'.perm exBatchDiagonals.π exBatchDiagonals.m
    exBatchDiagonals.s exBatchDiagonals.query exBatchDiagonals.nDim exBatchDiagonals.buffer exBatchDiagonals.kinds [2, 0] exBatchDiagonals.needed h'.args exBatchDiagonals.us exBatchDiagonals.os
    h'.calls h'.good
  obtain ⟨cons', -, k'⟩ := C67_profile_partial exBatch.memE h.memE exBatch.memZ h.memZ exBatch.shuffle h.perm exBatch.π exBatch.m exBatch.s exBatch.query exBatch.nDim exBatch.buffer
    exBatch.kinds [2, 0] exBatch.needed h.args exBatch.us exBatch.os h.calls h.good
  obtain _ | ⟨⟨-, a⟩, -⟩ := k
  obtain _ | ⟨⟨-, a'⟩, -⟩ := k'
  have M := C67_monotone _ _ _ _ _ _ exBatchDiagonals.us [.columns 1 2, .diagonals 3] _ _ a a'
  exact ⟨_, _, fun c hc => let ⟨_, _, v, _, _, v', _, _, e, _, _, e', _, _, hv⟩ := M c hc; ⟨v, v', e, e', hv⟩⟩

end Verif
