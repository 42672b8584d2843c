import Verif.Lemmas.CaseExamples
import Verif.Props.ZNormLaws

/-!
# C107: calculations on transformed data

Two calculations whose generators stand for the same distances, and the transformations of the data under which the distances of the generators of the
repository do not change.
-/

namespace Verif
open Spec
variable {α C : Type}

/-! ### Equal distances, equal calls to the consumers -/

theorem diagValues_congr {K : Type} {D D' : List α → List α → Fl K} {m : Nat} {s q : List α}
    (h : ∀ c r, c + m ≤ s.length → r + m ≤ q.length → D' ((s.drop c).take m) ((q.drop r).take m) = D ((s.drop c).take m) ((q.drop r).take m)) (hm : 0 < m)
    (d : Int) : diagValues D' m s q d = diagValues D m s q d := by
  unfold diagValues
  refine List.map_congr_left fun k hk => ?_
  have hk := List.mem_range.mp hk
  unfold diagEntries at hk
  exact h _ _ (by omega) (by omega)

theorem batchEvents_congr {K : Type} {D D' : Nat → List α → List α → Fl K} {m : Nat} {s q : List α}
    (h : ∀ id c r, c + m ≤ s.length → r + m ≤ q.length → D' id ((s.drop c).take m) ((q.drop r).take m) = D id ((s.drop c).take m) ((q.drop r).take m))
    (hm : 0 < m) (selfJoin : Bool) (b : Int) (order : List Int) (ids : List Nat) : ∀ (us : List BOp) (u : BSt),
    (∀ a e, .columns a e ∈ us → e + m ≤ s.length + 1) →
    BSt.allEvents m selfJoin b order D' s q ids u us = BSt.allEvents m selfJoin b order D s q ids u us
  | [], _, _ => rfl
  | op :: us, u, hc => by
    unfold BSt.allEvents
    rw [batchEvents_congr h hm selfJoin b order ids us _ fun a e he => hc a e (List.mem_cons_of_mem _ he)]
    congr 1
    cases op with
    | diagonals n =>
      simp only [BSt.events]
      congr 1
      funext d
      rw [List.map_congr_left fun id _ => diagValues_congr (h id) hm d]
    | columns a e =>
      have := hc a e (by simp)
      refine List.map_congr_left fun i hi => ?_
      have hi := List.mem_range.mp hi
      congr 1
      refine List.map_congr_left fun id _ => List.map_congr_left fun r hr => ?_
      have hr := List.mem_range.mp hr
      unfold pairValue
      rw [h id (a + i) r (by omega) (by omega)]

theorem MSt.step_prefix (m N : Nat) (M : Option Nat) (u : MSt α) (op : MOp α) : u.s <+: (u.step m N M op).s ∧ u.q <+: (u.step m N M op).q := by
  cases op with
  | series v => exact ⟨List.prefix_append _ _, by unfold MSt.step; dsimp only; split; exacts [List.prefix_append _ _, List.prefix_rfl]⟩
  | query v => exact ⟨List.prefix_rfl, List.prefix_append _ _⟩
  | columns k => exact ⟨List.prefix_rfl, List.prefix_rfl⟩

theorem MSt.run_prefix (m N : Nat) (M : Option Nat) : ∀ (us : List (MOp α)) (u : MSt α), u.s <+: (u.run m N M us).s ∧ u.q <+: (u.run m N M us).q
  | [], _ => ⟨List.prefix_rfl, List.prefix_rfl⟩
  | op :: us, u => by
    have h1 := MSt.step_prefix m N M u op
    have h2 := MSt.run_prefix m N M us (u.step m N M op)
    exact ⟨h1.1.trans h2.1, h1.2.trans h2.2⟩

theorem prefix_window {l l' : List α} (h : l <+: l') (c m : Nat) (hc : c + m ≤ l.length) : (l'.drop c).take m = (l.drop c).take m := by
  obtain ⟨t, rfl⟩ := h
  rw [List.drop_append_of_le_length (by omega), List.take_append_of_le_length (by rw [List.length_drop]; omega)]

theorem streamEvents_congr {K : Type} {D D' : Nat → List α → List α → Fl K} {m N : Nat} {M : Option Nat} (hm : 0 < m) (b : Int) (ids : List Nat) :
    ∀ (us : List (MOp α)) (u : MSt α),
    (∀ id c r, c + m ≤ (u.run m N M us).s.length → r + m ≤ (u.run m N M us).q.length →
      D' id (((u.run m N M us).s.drop c).take m) (((u.run m N M us).q.drop r).take m) = D id (((u.run m N M us).s.drop c).take m) (((u.run m N M us).q.drop r).take m)) →
    MSt.allEvents m N M b D' ids u us = MSt.allEvents m N M b D ids u us
  | [], _, _ => rfl
  | op :: us, u, h => by
    have ih := streamEvents_congr hm b ids us (u.step m N M op) h
    unfold MSt.allEvents
    rw [ih]
    congr 1
    cases op with
    | series v => rfl
    | query v => rfl
    | columns k =>
      have hp := MSt.run_prefix m N M (.columns k :: us) u
      have h' : ∀ id c r, c + m ≤ u.s.length → r + m ≤ u.q.length → D' id ((u.s.drop c).take m) ((u.q.drop r).take m) = D id ((u.s.drop c).take m) ((u.q.drop r).take m) := by
        intro id c r hc hr
        have := h id c r (hc.trans hp.1.length_le) (hr.trans hp.2.length_le)
        rwa [prefix_window hp.1 c m hc, prefix_window hp.2 r m hr] at this
      simp only [MSt.events]
      refine List.map_congr_left fun i hi => ?_
      have hi := List.mem_range.mp hi
      congr 1
      refine List.map_congr_left fun id _ => List.map_congr_left fun r hr => ?_
      have hr := List.mem_range.mp hr
      simp only [lastN, List.length_drop] at hi hr
      unfold MSt.cell
      rw [h' id _ _ (by omega) (by omega)]

/-- A batch calculation with the same calls on rows read differently: channel `ch` of row `x` is `π' ch x`. -/
def BatchCase.reread (B : BatchCase α) (π' : Nat → α → ℝ) : BatchCase α := { B with π := π' }

/-- A streaming calculation with the same calls on rows read differently. -/
def StreamCase.reread (S : StreamCase α) (π' : Nat → α → ℝ) (os : List (Streaming.Op ℝ)) : StreamCase α := { S with π := π', os := os }

theorem same_results {Q : C × List Nat → C → Prop} {cs c1 c2 : List (C × List Nat)} (hQ : ∀ c p p', Q c p → Q c p' → p = p')
    (h1 : List.Forall₂ (fun c c' => c'.2 = c.2 ∧ Q c c'.1) cs c1) (h2 : List.Forall₂ (fun c c' => c'.2 = c.2 ∧ Q c c'.1) cs c2) : c2 = c1 := by
  induction h1 generalizing c2 with
  | nil => cases h2; rfl
  | cons h hs ih =>
    cases h2 with
    | cons h' hs' =>
      rw [ih hs']
      congr 1
      exact Prod.ext (hQ _ _ _ h'.2 h.2) (h'.1.trans h.1.symm)

theorem fed_unique {K G : Type} (ops : Ops G C K) (h w : Int) (ev : List Nat → List (CEvent K)) (c : C × List Nat) (p p' : C)
    (h1 : ∃ p0, ops.initialise c.1 c.2.length h w = .ok p0 ∧ feed ops p0 (ev c.2) = .ok p)
    (h2 : ∃ p0, ops.initialise c.1 c.2.length h w = .ok p0 ∧ feed ops p0 (ev c.2) = .ok p') : p = p' := by
  obtain ⟨q0, e1, e2⟩ := h1
  obtain ⟨q1, e3, e4⟩ := h2
  rw [e1] at e3
  cases e3
  rw [e2] at e4
  exact Except.ok.inj e4

/-- **C107, batch, general.** Two calculations with the same arguments and calls, on data for which the generators stand for the same distances: every consumer ends
in the same state. -/
theorem C107_batch_distances_partial (B : BatchCase α) (π' : Nat → α → ℝ) (ops : GenOps (ColCache ℝ ⊕ ZN) ℝ → Ops (ColCache ℝ ⊕ ZN) C ℝ) (hops : ∀ g, (ops g).gen = g)
    (cs : List (C × List Nat)) (hB : B.Ok (cs.map (·.2))) (hB' : (B.reread π').Ok (cs.map (·.2)))
    (hD : ∀ id c r, c + B.m ≤ B.s.length → r + B.m ≤ B.q.length →
      streamDist π' B.m B.kinds id ((B.s.drop c).take B.m) ((B.q.drop r).take B.m) = streamDist B.π B.m B.kinds id ((B.s.drop c).take B.m) ((B.q.drop r).take B.m))
    (hfed : ∀ c ∈ cs, ∃ p0 p', (ops (GenKind.ops B.memE B.memZ)).initialise c.1 c.2.length (B.h : Int) (B.w : Int) = .ok p0 ∧
      feed (ops (GenKind.ops B.memE B.memZ)) p0 (B.events c.2) = .ok p') :
    ∃ cons', B.result ops cs = .ok cons' ∧ (B.reread π').result ops cs = .ok cons' := by
  have hm := hB.args.pos
  have hs := hB.args.series
  have hev : ∀ ids, (B.reread π').events ids = B.events ids := fun ids =>
    batchEvents_congr hD hm _ _ _ ids B.us BSt.init fun a e h => by
      have := hB.calls.columns_le a e h
      omega
  obtain ⟨c1, h1, h2⟩ := BatchCase.consumers ops hops cs hB (fun c p' => ∃ p0, (ops (GenKind.ops B.memE B.memZ)).initialise c.1 c.2.length (B.h : Int) (B.w : Int) = .ok p0 ∧
      feed (ops (GenKind.ops B.memE B.memZ)) p0 (B.events c.2) = .ok p') fun c hc => by
    obtain ⟨p0, p', e1, e2⟩ := hfed c hc
    exact ⟨p0, p', e1, e2, p0, e1, e2⟩
  obtain ⟨c2, h3, h4⟩ := BatchCase.consumers ops hops cs hB' (fun c p' => ∃ p0, (ops (GenKind.ops B.memE B.memZ)).initialise c.1 c.2.length (B.h : Int) (B.w : Int) = .ok p0 ∧
      feed (ops (GenKind.ops B.memE B.memZ)) p0 (B.events c.2) = .ok p') fun c hc => by
    obtain ⟨p0, p', e1, e2⟩ := hfed c hc
    exact ⟨p0, p', e1, by rw [hev]; exact e2, p0, e1, e2⟩
  exact ⟨c1, h1, by rw [h3, same_results (fed_unique _ _ _ _) h2 h4]⟩

/-- **C107, streaming, general.** -/
theorem C107_stream_distances_partial (S : StreamCase α) (π' : Nat → α → ℝ) (os : List (Streaming.Op ℝ)) (ops : GenOps (ColCache ℝ ⊕ ZN) ℝ → Ops (ColCache ℝ ⊕ ZN) C ℝ)
    (hops : ∀ g, (ops g).gen = g) (cs : List (C × List Nat)) (hS : S.Ok (cs.map (·.2))) (hS' : (S.reread π' os).Ok (cs.map (·.2)))
    (hD : ∀ id c r, c + S.m ≤ S.last.s.length → r + S.m ≤ S.last.q.length →
      streamDist π' S.m S.kinds id ((S.last.s.drop c).take S.m) ((S.last.q.drop r).take S.m) =
        streamDist S.π S.m S.kinds id ((S.last.s.drop c).take S.m) ((S.last.q.drop r).take S.m))
    (hfed : ∀ c ∈ cs, ∃ p0 p', (ops (GenKind.ops S.memE S.memZ)).initialise c.1 c.2.length (S.h : Int) (S.w : Int) = .ok p0 ∧
      feed (ops (GenKind.ops S.memE S.memZ)) p0 (S.events c.2) = .ok p') :
    ∃ cons', S.result ops cs = .ok cons' ∧ (S.reread π' os).result ops cs = .ok cons' := by
  have hev : ∀ ids, (S.reread π' os).events ids = S.events ids := fun ids => streamEvents_congr hS.args.pos _ ids S.us MSt.init hD
  obtain ⟨c1, h1, h2⟩ := StreamCase.consumers ops hops cs hS (fun c p' => ∃ p0, (ops (GenKind.ops S.memE S.memZ)).initialise c.1 c.2.length (S.h : Int) (S.w : Int) = .ok p0 ∧
      feed (ops (GenKind.ops S.memE S.memZ)) p0 (S.events c.2) = .ok p') fun c hc => by
    obtain ⟨p0, p', e1, e2⟩ := hfed c hc
    exact ⟨p0, p', e1, e2, p0, e1, e2⟩
  obtain ⟨c2, h3, h4⟩ := StreamCase.consumers ops hops cs hS' (fun c p' => ∃ p0, (ops (GenKind.ops S.memE S.memZ)).initialise c.1 c.2.length (S.h : Int) (S.w : Int) = .ok p0 ∧
      feed (ops (GenKind.ops S.memE S.memZ)) p0 (S.events c.2) = .ok p') fun c hc => by
    obtain ⟨p0, p', e1, e2⟩ := hfed c hc
    exact ⟨p0, p', e1, by rw [hev]; exact e2, p0, e1, e2⟩
  exact ⟨c1, h1, by rw [h3, same_results (fed_unique _ _ _ _) h2 h4]⟩

/-! ### Transformations that keep the distances -/

/-- Replacing the points `x` of a channel by `a * x + b` in the series `s` and by `c * x + d` in the query `q` keeps the distances of a generator. -/
def GenKind.Keeps (m : Nat) (a b c d : ℝ) (s q : List ℝ) : GenKind → Prop
  | .euclidean _ => a ^ 2 = 1 ∧ c = a ∧ d = b
  | .znorm noise _ => 0 < a * c ∧ ((a ^ 2 = 1 ∧ c ^ 2 = 1) ∨ (noise = 0 ∧
      (∀ j, j + m ≤ s.length → 1 / 10 ^ 6 < std m (seqOf s) j ∧ 1 / 10 ^ 6 < |a| * std m (seqOf s) j) ∧
      ∀ i, i + m ≤ q.length → 1 / 10 ^ 6 < std m (seqOf q) i ∧ 1 / 10 ^ 6 < |c| * std m (seqOf q) i))

theorem sqd_affine {a b : ℝ} (ha : a ^ 2 = 1) (m : Nat) (s q : List ℝ) (i j : Nat) (hi : i + m ≤ q.length) (hj : j + m ≤ s.length) :
    sqd m (seqOf (s.map fun x => a * x + b)) (seqOf (q.map fun x => a * x + b)) i j = sqd m (seqOf s) (seqOf q) i j := by
  unfold sqd
  refine Finset.sum_congr rfl fun k hk => ?_
  have hk := Finset.mem_range.mp hk
  rw [seqOf_map_affine m s a b j hj k hk, seqOf_map_affine m q a b i hi k hk]
  have : (a * seqOf s (j + k) + b - (a * seqOf q (i + k) + b)) ^ 2 = a ^ 2 * (seqOf s (j + k) - seqOf q (i + k)) ^ 2 := by ring
  rw [this, ha, one_mul]

theorem zdist_isometry {a b c d : ℝ} (ha : a ^ 2 = 1) (hc : c ^ 2 = 1) (hac : 0 < a * c) (m : Nat) (hm : 0 < m) (noise : ℝ) (s q : List ℝ) (i j : Nat)
    (hi : i + m ≤ q.length) (hj : j + m ≤ s.length) :
    zdist m noise (seqOf (s.map fun x => a * x + b)) (seqOf (q.map fun x => c * x + d)) i j = zdist m noise (seqOf s) (seqOf q) i j := by
  have h1 : |a| = 1 := by rw [← sq_eq_sq₀ (abs_nonneg a) (by norm_num), sq_abs, ha]; norm_num
  have h2 : |c| = 1 := by rw [← sq_eq_sq₀ (abs_nonneg c) (by norm_num), sq_abs, hc]; norm_num
  have e1 := std_affine m hm (seqOf s) _ j a b (seqOf_map_affine m s a b j hj)
  have e2 := std_affine m hm (seqOf q) _ i c d (seqOf_map_affine m q c d i hi)
  have e3 := zsq_affine m hm (seqOf s) (seqOf q) _ _ i j a b c d hac (seqOf_map_affine m s a b j hj) (seqOf_map_affine m q c d i hi)
  rw [h1, one_mul] at e1
  rw [h2, one_mul] at e2
  unfold zdist znoise zflat Flat
  rw [e1, e2, e3]

theorem GenKind.Keeps.dist {m : Nat} (hm : 0 < m) {a b c d : ℝ} {s q : List ℝ} {k : GenKind} (h : k.Keeps m a b c d s q) (i j : Nat) (hi : i + m ≤ q.length)
    (hj : j + m ≤ s.length) :
    k.dist m (win m (s.map fun x => a * x + b) j) (win m (q.map fun x => c * x + d) i) = k.dist m (win m s j) (win m q i) := by
  cases k with
  | euclidean scale =>
    obtain ⟨h1, rfl, rfl⟩ := h
    simp only [GenKind.dist, sqd_win, sqd_affine h1 m s q i j hi hj]
  | znorm noise scale =>
    obtain ⟨hac, h⟩ := h
    simp only [GenKind.dist, zdist_win]
    rcases h with ⟨h1, h2⟩ | ⟨rfl, h1, h2⟩
    · rw [zdist_isometry h1 h2 hac m hm noise s q i j hi hj]
    · rw [zdist_affine m hm (seqOf s) (seqOf q) _ _ i j a b c d hac (seqOf_map_affine m s a b j hj) (seqOf_map_affine m q c d i hi) (h1 j hj).1 (h2 i hi).1 (h1 j hj).2 (h2 i hi).2]

/-- The two readings of the rows are related by affine maps, one for each channel of the series and one for each channel of the query, that keep the distances. -/
structure Transformed (m : Nat) (kinds : List (GenKind × Nat)) (π π' : Nat → α → ℝ) (s q : List α) (a b c d : Nat → ℝ) : Prop where
  series : ∀ ch, ∀ x ∈ s, π' ch x = a ch * π ch x + b ch
  query : ∀ ch, ∀ x ∈ q, π' ch x = c ch * π ch x + d ch
  keeps : ∀ k ∈ kinds, k.1.Keeps m (a k.2) (b k.2) (c k.2) (d k.2) (s.map (π k.2)) (q.map (π k.2))

theorem Transformed.dist {m : Nat} (hm : 0 < m) {kinds : List (GenKind × Nat)} {π π' : Nat → α → ℝ} {s q : List α} {a b c d : Nat → ℝ}
    (h : Transformed m kinds π π' s q a b c d) (id j i : Nat) (hj : j + m ≤ s.length) (hi : i + m ≤ q.length) :
    streamDist π' m kinds id ((s.drop j).take m) ((q.drop i).take m) = streamDist π m kinds id ((s.drop j).take m) ((q.drop i).take m) := by
  unfold streamDist
  split
  · rename_i k ch hk
    have hkeep := (h.keeps _ (List.mem_of_getElem? hk)).dist hm i j (by simpa using hi) (by simpa using hj)
    have e1 : s.map (π' ch) = (s.map (π ch)).map fun x => a ch * x + b ch := by
      rw [List.map_map]; exact List.map_congr_left fun x hx => h.series ch x hx
    have e2 : q.map (π' ch) = (q.map (π ch)).map fun x => c ch * x + d ch := by
      rw [List.map_map]; exact List.map_congr_left fun x hx => h.query ch x hx
    simp only [List.map_take, List.map_drop, e1, e2]
    exact hkeep
  · rfl

theorem Transformed.good {m : Nat} {kinds : List (GenKind × Nat)} {π π' : Nat → α → ℝ} {s q : List α} {a b c d : Nat → ℝ}
    (h : Transformed m kinds π π' s q a b c d) {g : GenKind × Nat} (hg : g ∈ kinds) {x y : List α} (hx : ∀ z ∈ x, z ∈ s) (hy : ∀ z ∈ y, z ∈ q)
    (hgood : g.1.Good m (x.map (π g.2)) (y.map (π g.2))) : g.1.Good m (x.map (π' g.2)) (y.map (π' g.2)) := by
  obtain ⟨k, ch⟩ := g
  have hk := h.keeps _ hg
  cases k with
  | znorm => trivial
  | euclidean scale =>
    obtain ⟨h1, h2, h3⟩ := hk
    have e1 : x.map (π' ch) = (x.map (π ch)).map fun x => a ch * x + b ch := by
      rw [List.map_map]; exact List.map_congr_left fun z hz => h.series ch z (hx z hz)
    have e2 : y.map (π' ch) = (y.map (π ch)).map fun x => a ch * x + b ch := by
      rw [List.map_map]; exact List.map_congr_left fun z hz => by rw [h.query ch z (hy z hz), h2, h3]; rfl
    intro i j hi hj
    rw [List.length_map] at hi hj
    dsimp only
    rw [e1, e2, sqd_affine h1 m _ _ i j (by simpa using hi) (by simpa using hj)]
    exact hgood i j (by simpa using hi) (by simpa using hj)

theorem mem_lastN {n : Nat} {l : List α} {x : α} (h : x ∈ lastN n l) : x ∈ l := List.mem_of_mem_drop (by simpa [lastN] using h)

/-- **C107, batch.** Replacing the points `x` of each channel by `a * x + b` in the series and `c * x + d` in the query does not change what any consumer shows at the end:
for Euclidean generators if `a = c = ±1` and `b = d`, for z-normalised generators if `a` and `c` are both 1 or both -1, or if they are of the same sign, there
is no noise elimination and no subsequence is flat before or afterwards. -/
theorem C107_batch_partial (B : BatchCase α) (π' : Nat → α → ℝ) (a b c d : Nat → ℝ) (hT : Transformed B.m B.kinds B.π π' B.s B.q a b c d)
    (ops : GenOps (ColCache ℝ ⊕ ZN) ℝ → Ops (ColCache ℝ ⊕ ZN) C ℝ) (hops : ∀ g, (ops g).gen = g) (cs : List (C × List Nat)) (hB : B.Ok (cs.map (·.2)))
    (hfed : ∀ c ∈ cs, ∃ p0 p', (ops (GenKind.ops B.memE B.memZ)).initialise c.1 c.2.length (B.h : Int) (B.w : Int) = .ok p0 ∧
      feed (ops (GenKind.ops B.memE B.memZ)) p0 (B.events c.2) = .ok p') :
    ∃ cons', B.result ops cs = .ok cons' ∧ (B.reread π').result ops cs = .ok cons' :=
  C107_batch_distances_partial B π' ops hops cs hB
    ⟨⟨hB.memE, hB.memZ, hB.perm, hB.args, hB.calls⟩, fun hc g hg => hT.good hg (fun _ h => h) (fun _ h => h) (hB.good hc g hg)⟩
    (fun id j i hj hi => hT.dist hB.args.pos id j i hj hi) hfed

/-- **C107, streaming.** -/
theorem C107_stream_partial (S : StreamCase α) (π' : Nat → α → ℝ) (os : List (Streaming.Op ℝ)) (a b c d : Nat → ℝ)
    (hT : Transformed S.m S.kinds S.π π' S.last.s S.last.q a b c d) (hos : AreCalls S.nDim π' S.m S.N S.M MSt.init S.us os)
    (ops : GenOps (ColCache ℝ ⊕ ZN) ℝ → Ops (ColCache ℝ ⊕ ZN) C ℝ) (hops : ∀ g, (ops g).gen = g) (cs : List (C × List Nat)) (hS : S.Ok (cs.map (·.2)))
    (hfed : ∀ c ∈ cs, ∃ p0 p', (ops (GenKind.ops S.memE S.memZ)).initialise c.1 c.2.length (S.h : Int) (S.w : Int) = .ok p0 ∧
      feed (ops (GenKind.ops S.memE S.memZ)) p0 (S.events c.2) = .ok p') :
    ∃ cons', S.result ops cs = .ok cons' ∧ (S.reread π' os).result ops cs = .ok cons' := by
  refine C107_stream_distances_partial S π' os ops hops cs hS ⟨⟨hS.memE, hS.memZ, hS.args, hos, hS.valid⟩, ?_⟩
    (fun id j i hj hi => hT.dist hS.args.pos id j i hj hi) hfed
  have hg := hS.good
  have hall : ∀ (us : List (MOp α)) (u : MSt α), (u.run S.m S.N S.M us).s = S.last.s → (u.run S.m S.N S.M us).q = S.last.q →
      u.All S.m S.N S.M (fun u op => ∀ k, op = .columns k → ∀ g ∈ S.kinds, g.1.Good S.m (lastN S.N (u.s.map (S.π g.2))) (lastN (S.M.getD S.N) (u.q.map (S.π g.2)))) us →
      u.All S.m S.N S.M (fun u op => ∀ k, op = .columns k → ∀ g ∈ S.kinds, g.1.Good S.m (lastN S.N (u.s.map (π' g.2))) (lastN (S.M.getD S.N) (u.q.map (π' g.2)))) us := by
    intro us
    induction us with
    | nil => exact fun _ _ _ _ => trivial
    | cons op us ih =>
      intro u h1 h2 h
      refine ⟨fun k hk g hg => ?_, ih _ h1 h2 h.2⟩
      have hp := MSt.run_prefix S.m S.N S.M (op :: us) u
      rw [h1, h2] at hp
      have hgood := h.1 k hk g hg
      have e : ∀ (n : Nat) (f : α → ℝ) (l : List α), lastN n (l.map f) = (lastN n l).map f := by intro n f l; simp [lastN, List.map_drop]
      rw [e, e] at hgood ⊢
      exact hT.good hg (fun z hz => hp.1.subset (mem_lastN hz)) (fun z hz => hp.2.subset (mem_lastN hz)) hgood
  exact hall S.us MSt.init rfl rfl hg

/-- **C107, batch, z-normalised generators only.** Any data. -/
theorem C107_batch_znorm (B : BatchCase α) (hz : ∀ k ∈ B.kinds, ∃ noise scale, k.1 = .znorm noise scale) (π' : Nat → α → ℝ) (a b c d : Nat → ℝ)
    (hT : Transformed B.m B.kinds B.π π' B.s B.q a b c d)
    (ops : GenOps (ColCache ℝ ⊕ ZN) ℝ → Ops (ColCache ℝ ⊕ ZN) C ℝ) (hops : ∀ g, (ops g).gen = g) (cs : List (C × List Nat)) (hB : B.Any (cs.map (·.2)))
    (hfed : ∀ c ∈ cs, ∃ p0 p', (ops (GenKind.ops B.memE B.memZ)).initialise c.1 c.2.length (B.h : Int) (B.w : Int) = .ok p0 ∧
      feed (ops (GenKind.ops B.memE B.memZ)) p0 (B.events c.2) = .ok p') :
    ∃ cons', B.result ops cs = .ok cons' ∧ (B.reread π').result ops cs = .ok cons' :=
  C107_batch_partial B π' a b c d hT ops hops cs ⟨hB, fun _ k hk => by obtain ⟨_, _, h⟩ := hz k hk; rw [h]; trivial⟩ hfed

/-- **C107, streaming, z-normalised generators only.** Any data. -/
theorem C107_stream_znorm (S : StreamCase α) (hz : ∀ k ∈ S.kinds, ∃ noise scale, k.1 = .znorm noise scale) (π' : Nat → α → ℝ) (os : List (Streaming.Op ℝ))
    (a b c d : Nat → ℝ) (hT : Transformed S.m S.kinds S.π π' S.last.s S.last.q a b c d) (hos : AreCalls S.nDim π' S.m S.N S.M MSt.init S.us os)
    (ops : GenOps (ColCache ℝ ⊕ ZN) ℝ → Ops (ColCache ℝ ⊕ ZN) C ℝ) (hops : ∀ g, (ops g).gen = g) (cs : List (C × List Nat)) (hS : S.Any (cs.map (·.2)))
    (hfed : ∀ c ∈ cs, ∃ p0 p', (ops (GenKind.ops S.memE S.memZ)).initialise c.1 c.2.length (S.h : Int) (S.w : Int) = .ok p0 ∧
      feed (ops (GenKind.ops S.memE S.memZ)) p0 (S.events c.2) = .ok p') :
    ∃ cons', S.result ops cs = .ok cons' ∧ (S.reread π' os).result ops cs = .ok cons' := by
  refine C107_stream_partial S π' os a b c d hT hos ops hops cs ⟨hS, ?_⟩ hfed
  generalize (MSt.init : MSt α) = u
  generalize S.us = us
  induction us generalizing u with
  | nil => trivial
  | cons op us ih => exact ⟨fun _ _ k hk => by obtain ⟨_, _, h⟩ := hz k hk; rw [h]; trivial, ih _⟩

/-! ### Concrete cases -/

/-- All values of `exChan` negated and shifted by 7. -/
def exMirror (ch : Nat) (x : ℤ × ℤ) : ℝ := -1 * exChan ch x + 7

theorem exMirror_keeps (m : Nat) (s q : List (ℤ × ℤ)) : Transformed m exKinds exChan exMirror s q (fun _ => -1) (fun _ => 7) (fun _ => -1) (fun _ => 7) where
  series := fun _ _ _ => rfl
  query := fun _ _ _ => rfl
  keeps := by
    intro k hk
    simp only [exKinds, List.mem_cons, List.not_mem_nil, or_false] at hk
    rcases hk with rfl | rfl | rfl
    · exact ⟨by norm_num, rfl, rfl⟩
    · exact ⟨by norm_num, .inl ⟨by norm_num, by norm_num⟩⟩
    · exact ⟨by norm_num, .inl ⟨by norm_num, by norm_num⟩⟩

/-- The distance matrices of `exBatch` and of its mirror image are the same. -/
example := have h := exBatch_ok (idss := [[2], [0]]) (by simp) (by simp) (by simp)
  C107_batch_partial exBatch exMirror _ _ _ _ (exMirror_keeps _ _ _) recorder (fun _ => rfl) [([], [2]), ([], [0])] h
    (fun _ _ => ⟨[], _, rfl, recorder_feed _ _ _⟩)

/-- `exBatch` with one z-normalised generator, all values tripled and shifted: no subsequence of channel 0 is flat. -/
noncomputable def exStretchable : BatchCase (ℤ × ℤ) := { exBatch with kinds := [(.znorm 0 (3 / 2), 0)], needed := [0] }

/-- The calls of `exFrameCalls` with the mirrored values. -/
noncomputable def exMirrorCalls : List (Streaming.Op ℝ) :=
  [.columns (fun _ => false) (.float (.fin (1 / 3))),
   .series (.d2 [[.fin 6, .fin 2, .fin 5, .fin (-1), .fin 4], [.fin 5, .fin 7, .fin 0, .fin 6, .fin 4]] 5),
   .query (.d2 [[.fin 3, .fin 3, .fin 0], [.fin 6, .fin 1, .fin 5]] 3),
   .columns (fun c => c == 1) (.float (.fin 1)), .series (.d1 [.fin (-2), .fin (-2)]), .columns (fun _ => false) (.int 3),
   .query (.d1 [.fin 7, .fin 2]), .columns (fun _ => true) (.int 3)]

theorem exMirrorCalls_ok : AreCalls 2 exMirror 2 4 (some 3) MSt.init exFrames exMirrorCalls := by
  refine ⟨⟨1, .inr ⟨1 / 3, rfl, by norm_num, by norm_num, by norm_num⟩, by simp, .inl rfl⟩, .inl ?_, .inl ?_,
    ⟨3, .inr ⟨1, rfl, by norm_num, by norm_num, by norm_num⟩, ?_, .inr ⟨by simp [MSt.step, MSt.init, lastN], by omega, rfl⟩⟩, .inr ⟨(9, 9), rfl, ?_⟩,
    ⟨3, .inl rfl, by simp, .inl rfl⟩, .inr ⟨(0, 5), rfl, ?_⟩, ⟨3, .inl rfl, ?_, .inl rfl⟩, trivial⟩
  · norm_num [exMirror, exChan, List.range_succ]
  · norm_num [exMirror, exChan, List.range_succ]
  · intro c _ h; simp; omega
  · norm_num [exMirror, exChan, List.range_succ]
  · norm_num [exMirror, exChan, List.range_succ]
  · intro c h1 h2
    simp [MSt.step, MSt.init, lastN] at h1
    omega

example := have h := exStreamCase_ok (idss := [[2], [0]]) (by simp) (by simp) (by simp)
  C107_stream_partial exStreamCase exMirror exMirrorCalls _ _ _ _ (exMirror_keeps _ _ _) exMirrorCalls_ok recorder (fun _ => rfl) [([], [2]), ([], [0])] h
    (fun _ _ => ⟨[], _, rfl, recorder_feed _ _ _⟩)

theorem std_two (x : Nat → ℝ) (i : Nat) : std 2 x i = |x i - x (i + 1)| / 2 := by
  have : var 2 x i = ((x i - x (i + 1)) / 2) ^ 2 := by
    unfold var mean
    simp only [Finset.sum_range_succ, Finset.sum_range_zero, add_zero, zero_add]
    push_cast
    ring
  unfold std
  rw [this, Real.sqrt_sq_eq_abs, abs_div, abs_two]

/-- Data that may be stretched: no subsequence is flat. -/
theorem exStretch : (GenKind.znorm 0 2).Keeps 2 3 1 5 0 [1, 5, 2] [4, 0] := by
  refine ⟨by norm_num, .inr ⟨rfl, ?_, ?_⟩⟩
  · intro j hj
    have : j = 0 ∨ j = 1 := by simp at hj; omega
    rcases this with rfl | rfl <;> rw [std_two] <;> norm_num [seqOf, abs_of_pos, abs_of_neg]
  · intro j hj
    have : j = 0 := by simp at hj; omega
    subst this
    rw [std_two]
    norm_num [seqOf, abs_of_pos, abs_of_neg]

example := C107_batch_znorm exStretchable (by intro k hk; simp only [exStretchable, List.mem_singleton] at hk; subst hk; exact ⟨_, _, rfl⟩)
  (fun ch x => 3 * exChan ch x + 1) (fun _ => 3) (fun _ => 1) (fun _ => 3) (fun _ => 1)
  ⟨fun _ _ _ => rfl, fun _ _ _ => rfl, by
    intro k hk
    simp only [exStretchable, List.mem_singleton] at hk
    subst hk
    have key : ∀ j, j + 2 ≤ ([1, 5, 2, 8, 3] : List ℝ).length → 1 / 10 ^ 6 < std 2 (seqOf [1, 5, 2, 8, 3]) j ∧ 1 / 10 ^ 6 < |(3 : ℝ)| * std 2 (seqOf [1, 5, 2, 8, 3]) j := by
      intro j hj
      have : j = 0 ∨ j = 1 ∨ j = 2 ∨ j = 3 := by simp at hj; omega
      rcases this with rfl | rfl | rfl | rfl <;> rw [std_two] <;> norm_num [seqOf, abs_of_pos, abs_of_neg]
    have e : exBatch.s.map (exChan 0) = [1, 5, 2, 8, 3] := by simp [exBatch, exChan]
    have e' : exStretchable.q.map (exChan 0) = [1, 5, 2, 8, 3] := e
    have e'' : exStretchable.s.map (exChan 0) = [1, 5, 2, 8, 3] := e
    refine ⟨by norm_num, .inr ⟨rfl, ?_, ?_⟩⟩
    · intro j hj
      have := key j (by rw [← e'']; exact hj)
      rwa [← e''] at this
    · intro j hj
      have := key j (by rw [← e']; exact hj)
      rwa [← e'] at this⟩
  recorder (fun _ => rfl) [([], [0])]
  (have h := (exBatch_ok (idss := [[0], [2]]) (by simp) (by simp) (by simp)).toAny
   ⟨h.memE, h.memZ, h.perm, ⟨h.args.pos, h.args.series, h.args.queryLen, h.args.dims, h.args.bufferLen, by simp [exStretchable, exBatch], by simp [exStretchable],
     by simp [exStretchable], by simp [exStretchable]⟩, h.calls⟩)
  (fun _ _ => ⟨[], _, rfl, recorder_feed _ _ _⟩)

/-- The stream `exStreamCase`, which has flat subsequences, with one z-normalised generator. -/
noncomputable def exMirrorable : StreamCase (ℤ × ℤ) := { exStreamCase with kinds := [(.znorm (1 / 10) 2, 0)], needed := [0] }

example := C107_stream_znorm exMirrorable (by intro k hk; simp only [exMirrorable, List.mem_singleton] at hk; subst hk; exact ⟨_, _, rfl⟩)
  exMirror exMirrorCalls (fun _ => -1) (fun _ => 7) (fun _ => -1) (fun _ => 7)
  ⟨fun _ _ _ => rfl, fun _ _ _ => rfl, by
    intro k hk
    simp only [exMirrorable, List.mem_singleton] at hk
    subst hk
    exact ⟨by norm_num, .inl ⟨by norm_num, by norm_num⟩⟩⟩
  exMirrorCalls_ok recorder (fun _ => rfl) [([], [0])]
  (have h := (exStreamCase_ok (idss := [[0], [2]]) (by simp) (by simp) (by simp)).toAny
   ⟨h.memE, h.memZ, ⟨h.args.pos, h.args.series, h.args.query, h.args.buffer, by simp [exMirrorable, GenKind.ScaleOk], by simp [exMirrorable, exStreamCase], by simp [exMirrorable],
     by simp [exMirrorable], by simp [exMirrorable]⟩, h.calls, h.valid⟩)
  (fun _ _ => ⟨[], _, rfl, recorder_feed _ _ _⟩)

end Verif
