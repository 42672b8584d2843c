import Verif.Lemmas.StreamMatrix
import Verif.Props.EndToEnd

/-!
# C61: the distance matrix of a streaming calculation
-/

namespace Verif
open Spec
variable {G K : Type}

theorem streamAssemble_ok {Inv : G → GSt K → Prop} (D : List K → List K → Fl K) (gops : GenOps G K) (prepare : Int → Int → Option Int → Except PyErr G)
    (m N : Nat) (M : Option Nat) (hm0 : 0 < m) (hN : m ≤ N) (hM : ∀ M', M = some M' → m ≤ M') (buffer : Option Int)
    (hb : M = none → -1 ≤ buffer.getD (m / 2) ∧ buffer.getD (m / 2) < ((N + 1 - m : Nat) : Int)) (g : G)
    (hg : prepare m N (M.map fun M : Nat => (M : Int)) = .ok g) (hi : Inv g ⟨[], [], none⟩) :
    ∃ st, Streaming.assemble (DM.ops gops) prepare DM.new m N (M.map fun M : Nat => (M : Int)) buffer = .ok st ∧
      MatInv Inv D m N M (if M.isNone then buffer.getD (m / 2) else -1) st MSt.init := by
  have e1 : ((N : Int) - m + 1) = ((N + 1 - m : Nat) : Int) := by omega
  have e2 : (((N + 1 - m : Nat) : Int) + m - 1) = (N : Int) := by omega
  cases M with
  | none =>
    have hmem : buffer.getD ((m : Int) / 2) ∈ pyRange (-1) ((N + 1 - m : Nat) : Int) := by rw [mem_pyRange]; have := hb rfl; omega
    let st : Streaming G (DM K) := ⟨⟨true, m, 1, ((N + 1 - m : Nat) : Int), ((N + 1 - m : Nat) : Int), buffer.getD ((m : Int) / 2), [(g, 0)],
      [(⟨N + 1 - m, N + 1 - m, fun _ _ => .nan⟩, [0])], -1⟩, 0, -1⟩
    refine ⟨st, ?_, ⟨⟨g, none, rfl, by simpa [MSt.init, lastN] using hi, by simp⟩, ⟨_, rfl, rfl, rfl, ?_⟩, rfl, rfl, rfl, rfl, rfl, rfl, by simp [st, MSt.init], rfl, by simp, fun _ => rfl,
      by simp [MSt.init], by simp [MSt.init]⟩⟩
    · simp only [Option.map_none] at hg ⊢
      unfold Streaming.assemble Streaming.init Streaming.addGenerator Streaming.addConsumer Calc.addConsumer Calc.init
      simp only [e1, if_true, if_pos hmem, bind, Except.bind, pure, Except.pure, e2, hg, DM.ops, DM.initialise]
      simp
      rfl
    · intro r hr c hc
      simp [MSt.init]
  | some M' =>
    have hM' := hM M' rfl
    have e3 : ((M' : Int) - m + 1) = ((M' + 1 - m : Nat) : Int) := by omega
    have e4 : (((M' + 1 - m : Nat) : Int) + m - 1) = (M' : Int) := by omega
    let st : Streaming G (DM K) := ⟨⟨false, m, 1, ((N + 1 - m : Nat) : Int), ((M' + 1 - m : Nat) : Int), -1, [(g, 0)],
      [(⟨M' + 1 - m, N + 1 - m, fun _ _ => .nan⟩, [0])], -1⟩, 0, 0⟩
    refine ⟨st, ?_, ⟨⟨g, none, rfl, by simpa [MSt.init, lastN] using hi, by simp⟩, ⟨_, rfl, rfl, rfl, ?_⟩, rfl, rfl, rfl, rfl, rfl, rfl, by simp [st, MSt.init], rfl, fun _ => rfl, by simp,
      by simp [MSt.init], by simp [MSt.init]⟩⟩
    · simp only [Option.map_some] at hg ⊢
      unfold Streaming.assemble Streaming.init Streaming.addGenerator Streaming.addConsumer Calc.addConsumer Calc.init
      simp only [e1, e3, bind, Except.bind, pure, Except.pure, e2, e4, hg, DM.ops, DM.initialise, Bool.false_eq_true, if_false]
      simp
      rfl
    · intro r hr c hc
      simp [MSt.init]

theorem matRun_inv {gops : GenOps G K} {m N : Nat} {M : Option Nat} {D : List K → List K → Fl K} {Ok : GSt K → GOp K → Prop}
    {Inv : G → GSt K → Prop} (H : Serves gops m N M D Ok Inv) (hm0 : 0 < m) (hN : m ≤ N) (hM : ∀ M', M = some M' → m ≤ M') (b : Int) (hb : -1 ≤ b)
    (hbj : M ≠ none → b = -1) (good : List K → List K → Prop)
    (hser : ∀ w v, Ok w (.series v)) (hqu : M ≠ none → ∀ w v, Ok w (.query v))
    (hcol : ∀ (s q : List K) (l : Option (Int × Bool)) (c : Nat), good s q → c + m ≤ s.length → m ≤ q.length →
      (GSt.mk s q l).Safe (.column c) → Ok ⟨s, q, l⟩ (.column c)) (us : List (MOp K)) :
    ∀ (os : List (Streaming.Op K)) (st : Streaming G (DM K)) (u : MSt K), MatInv Inv D m N M b st u → List.Forall₂ (IsCall (N + 1 - m)) us os →
      u.All m N M (fun u op => u.Valid m M op ∧ ∀ k, op = .columns k → good (lastN N u.s) (lastN (M.getD N) u.q)) us →
      ∃ st', Streaming.run (DM.ops gops) [0] os st = .ok st' ∧ MatInv Inv D m N M b st' (u.run m N M us) := by
  induction us with
  | nil => intro os st u hi hc _; cases hc; exact ⟨st, rfl, hi⟩
  | cons x us ih =>
    intro os st u hi hc hall
    obtain ⟨o, os', h1, h2, rfl⟩ := List.forall₂_cons_left_iff.mp hc
    obtain ⟨⟨hv, hg⟩, hall⟩ := hall
    obtain ⟨st1, e1, e2⟩ : ∃ st1, Streaming.step (DM.ops gops) [0] st o = .ok st1 ∧ MatInv Inv D m N M b st1 (u.step m N M x) := by
      cases x with
      | series v =>
        cases o with
        | series a => exact series_inv H hm0 hN hM b st u hi v a h1 (fun w => hser w v)
        | query a => exact h1.elim
        | columns i k => exact h1.elim
      | query v =>
        cases o with
        | query a =>
          cases M with
          | none => exact absurd rfl hv
          | some M' => exact query_inv H hm0 hN (hM M' rfl) b st u hi v a h1 (fun w => hqu (by simp) w v)
        | series a => exact h1.elim
        | columns i k => exact h1.elim
      | columns k =>
        cases o with
        | columns i upto =>
          obtain ⟨rfl, h1⟩ := h1
          exact columns_inv H hm0 hN hM b hb hbj st u hi k upto h1 hv (fun l c h1 h2 h3 => hcol _ _ l c (hg k rfl) h1 h2 h3)
        | series a => exact h1.elim
        | query a => exact h1.elim
    obtain ⟨st2, e3, e4⟩ := ih os' st1 _ e2 h2 hall
    exact ⟨st2, by rw [Streaming.run, e1]; exact e3, e4⟩

/-- The matrix `p` shows the calculated distances of the windows after the calls: `d r c` for a calculated pair outside the trivial match
band, `+inf` within it, NaN for a pair not calculated. -/
structure Spec.ShowsMatrix (d : List K → List K → Nat → Nat → K) (m N : Nat) (M : Option Nat) (buffer : Int) (u : MSt K) (p : DM K) : Prop where
  h_eq : p.h = M.getD N + 1 - m
  w_eq : p.w = N + 1 - m
  entries : ∀ r < p.h, ∀ c < p.w,
    (u.done (r + (u.q.length - M.getD N)) (c + (u.s.length - N)) → r + m ≤ (lastN (M.getD N) u.q).length ∧ c + m ≤ (lastN N u.s).length ∧
      (M = none ∧ ¬ Apart buffer r c → p.m r c = .pinf) ∧
      (¬ (M = none ∧ ¬ Apart buffer r c) → p.m r c = .fin (d (lastN N u.s) (lastN (M.getD N) u.q) r c))) ∧
    (¬ u.done (r + (u.q.length - M.getD N)) (c + (u.s.length - N)) → p.m r c = .nan)

theorem streamMatrix_ok {gops : GenOps G K} {m N : Nat} {M : Option Nat} {δ : List K → List K → K} {Ok : GSt K → GOp K → Prop}
    {Inv : G → GSt K → Prop} (H : Serves gops m N M (fun a b => .fin (δ a b)) Ok Inv) (hm0 : 0 < m) (hN : m ≤ N) (hM : ∀ M', M = some M' → m ≤ M')
    (good : List K → List K → Prop) (hser : ∀ w v, Ok w (.series v)) (hqu : M ≠ none → ∀ w v, Ok w (.query v))
    (hcol : ∀ (s q : List K) (l : Option (Int × Bool)) (c : Nat), good s q → c + m ≤ s.length → m ≤ q.length →
      (GSt.mk s q l).Safe (.column c) → Ok ⟨s, q, l⟩ (.column c))
    (prepare : Int → Int → Option Int → Except PyErr G) (buffer : Option Int)
    (hb : M = none → -1 ≤ buffer.getD (m / 2) ∧ buffer.getD (m / 2) < ((N + 1 - m : Nat) : Int)) (g : G)
    (hg : prepare m N (M.map fun M : Nat => (M : Int)) = .ok g) (hi : Inv g ⟨[], [], none⟩)
    (us : List (MOp K)) (os : List (Streaming.Op K)) (hc : List.Forall₂ (IsCall (N + 1 - m)) us os)
    (hall : MSt.init.All m N M (fun u op => u.Valid m M op ∧ ∀ k, op = .columns k → good (lastN N u.s) (lastN (M.getD N) u.q)) us) :
    ∃ p, streamMatrix gops prepare m N (M.map fun M : Nat => (M : Int)) buffer os = .ok p ∧
      ShowsMatrix (fun s q r c => δ (win m s c) (win m q r)) m N M (buffer.getD (m / 2)) (MSt.init.run m N M us) p := by
  classical
  obtain ⟨st, h1, h2⟩ := streamAssemble_ok (Inv := Inv) (fun a b => .fin (δ a b)) gops prepare m N M hm0 hN hM buffer hb g hg hi
  obtain ⟨st', h3, h4⟩ := matRun_inv H hm0 hN hM _ (by cases M with | none => simpa using (hb rfl).1 | some _ => simp) (by
    intro h
    rw [if_neg]
    simpa using h) good hser hqu hcol us os st MSt.init h2 hc hall
  obtain ⟨p, p1, p2, p3, p4⟩ := h4.mat
  refine ⟨p, ?_, p2, p3, ?_⟩
  · unfold streamMatrix
    simp only [h1, h3, bind, Except.bind, p1]
    rfl
  · intro r hr c hc'
    set u := MSt.init.run m N M us
    rw [p2] at hr
    rw [p3] at hc'
    obtain ⟨o1, o2⟩ := p4 r hr c hc'
    refine ⟨fun hd => ?_, o2⟩
    obtain ⟨d1, d2⟩ := h4.done _ _ hd
    have o1 := o1 hd
    rw [lastN_length, lastN_length]
    have hcond : ((((r + (u.q.length - M.getD N) : Nat) : Int) - ((c + (u.s.length - N) : Nat) : Int) ≤ (if M.isNone then buffer.getD ((m : Int) / 2) else -1) ∧
            ((c + (u.s.length - N) : Nat) : Int) - ((r + (u.q.length - M.getD N) : Nat) : Int) ≤ (if M.isNone then buffer.getD ((m : Int) / 2) else -1))) ↔
          (M = none ∧ ¬ Apart (buffer.getD (m / 2)) r c) := by
      unfold Apart
      rw [abs_lt_iff_not]
      cases M with
      | none =>
        rw [h4.self rfl]
        simp only [Option.getD_none, Option.isNone_none, if_true, true_and]
        omega
      | some M' => simp; omega
    unfold cellVal at o1
    rw [if_congr hcond rfl rfl] at o1
    refine ⟨by omega, by omega, fun h => ?_, fun h => ?_⟩
    · rw [o1, if_pos h]
    · rw [o1, if_neg h, win_lastN, win_lastN]

/-- **C61, z-normalised Euclidean distance.** Any sequence of `append_series`, `append_query` and `calculate_columns(upto)` calls, any
windows, any trivial match buffer the constructor accepts. -/
theorem C61_znorm (mem : ZN.Mem) (hmem : mem.Ok) (noise : ℝ) (scale : ℚ) (hs1 : 1 ≤ scale) (hs2 : scale ≤ 2) (m N : Nat) (M : Option Nat) (hm0 : 0 < m)
    (hN : m ≤ N) (hM : ∀ M', M = some M' → m ≤ M') (buffer : Option Int)
    (hb : M = none → -1 ≤ buffer.getD (m / 2) ∧ buffer.getD (m / 2) < ((N + 1 - m : Nat) : Int))
    (us : List (MOp ℝ)) (os : List (Streaming.Op ℝ)) (hc : List.Forall₂ (IsCall (N + 1 - m)) us os)
    (hall : MSt.init.All m N M (fun u op => u.Valid m M op) us) :
    ∃ p, streamMatrix (ZN.genOps mem) (ZN.streaming mem noise scale) m N (M.map fun M : Nat => (M : Int)) buffer os = .ok p ∧
      ShowsMatrix (fun s q r c => zdist m noise (seqOf s) (seqOf q) r c) m N M (buffer.getD (m / 2)) (MSt.init.run m N M us) p := by
  obtain ⟨z, z1, z2, z3, z4⟩ := ZN.prepareStreaming_ok mem hmem noise scale hs1 hs2 m hm0 N M hN hM
  have e : (fun s q r c => zdist m noise (seqOf s) (seqOf q) r c) =
      fun s q r c => zdist m noise (seqOf (win m s c)) (seqOf (win m q r)) 0 0 := by funext s q r c; rw [zdist_win]
  rw [e]
  obtain ⟨b1, b2⟩ := (ZN.Fresh.streaming scale N M z hs1 hs2 hN hM z1).base hmem hm0
  refine streamMatrix_ok (ZN.serves mem hmem noise m N M) hm0 hN hM (fun _ _ => True) (fun w v => ⟨trivial, trivial⟩) (fun h w v => ⟨h, trivial⟩)
    (fun s q l c _ h1 h2 h3 => ⟨⟨h1, h2⟩, h3⟩) (ZN.streaming mem noise scale) buffer hb z ?_ ⟨b1, b2⟩ us os hc ?_
  · unfold ZN.streaming
    simpa [Option.map_map, Function.comp_def] using z1
  · clear hc
    revert hall
    generalize (MSt.init : MSt ℝ) = u
    induction us generalizing u with
    | nil => intro _; trivial
    | cons x us ih => intro h; exact ⟨⟨h.1, fun _ _ => trivial⟩, ih _ h.2⟩

section
variable [Field K] [LinearOrder K] [IsStrictOrderedRing K]

/-- **C61, Euclidean distance.** Partial: whenever columns are calculated, no two different subsequences of the windows may be at squared
distance below `1e-15` (`C61_euclidean_nan`). -/
theorem C61_euclidean_partial (mem : Nat → List (Fl K)) (hmem : ∀ n, (mem n).length = n) (sq : K → K) (scale : ℚ) (hs1 : 1 ≤ scale) (hs2 : scale ≤ 2)
    (m N : Nat) (M : Option Nat) (hm0 : 0 < m)
    (hN : m ≤ N) (hM : ∀ M', M = some M' → m ≤ M') (buffer : Option Int)
    (hb : M = none → -1 ≤ buffer.getD (m / 2) ∧ buffer.getD (m / 2) < ((N + 1 - m : Nat) : Int))
    (us : List (MOp K)) (os : List (Streaming.Op K)) (hc : List.Forall₂ (IsCall (N + 1 - m)) us os)
    (hall : MSt.init.All m N M (fun u op => u.Valid m M op ∧ ∀ k, op = .columns k → Eucl.NoTiny m (lastN N u.s) (lastN (M.getD N) u.q)) us) :
    ∃ p, streamMatrix (Eucl.genOps mem sq) (Eucl.streaming mem scale) m N (M.map fun M : Nat => (M : Int)) buffer os = .ok p ∧
      ShowsMatrix (fun s q r c => sq (sqd m (seqOf s) (seqOf q) r c)) m N M (buffer.getD (m / 2)) (MSt.init.run m N M us) p := by
  have e : (fun s q r c => sq (sqd m (seqOf s) (seqOf q) r c)) =
      fun s q r c => sq (sqd m (seqOf (win m s c)) (seqOf (win m q r)) 0 0) := by funext s q r c; rw [sqd_win]
  rw [e]
  have hf : Eucl.Fresh mem m (Eucl.prepareStreaming mem scale m N M) N M ⟨[], [], none⟩ := Eucl.Fresh.streaming scale N M hs1 hs2 hN
    (by intro h; have := hM 0 h; omega)
  refine streamMatrix_ok (Eucl.serves mem hmem sq m N M) hm0 hN hM (fun s q => Eucl.NoTiny m s q) (fun w v => ⟨trivial, trivial, by simp⟩)
    (fun h w v => ⟨h, trivial, by simp⟩)
    (fun s q l c h0 h1 h2 h3 => ⟨⟨h1, h2⟩, h3, fun _ _ => h0⟩) (Eucl.streaming mem scale) buffer hb _ ?_
    ⟨(hf.data hmem hm0).1, hf.cache hmem hm0⟩ us os hc hall
  unfold Eucl.streaming
  simp [Option.map_map, Function.comp_def]

end

/-- The Euclidean part of C61 does not hold for every input: the squared distance of the subsequences at position 0 is `4e-16`, and the
matrix holds NaN for the pair (1, 1) although that pair has been calculated and is at distance 0. -/
theorem C61_euclidean_nan : ∃ p, streamMatrix (Eucl.genOps zeroMem (fun x => x)) (Eucl.streaming zeroMem 2) 1 2 (some 2) none
    [.series (.d2 [[.fin (1 / 50000000), .fin 5]] 2), .query (.d2 [[.fin 0, .fin 5]] 2), .columns (fun _ => false) (.float (.fin 1))] = .ok p ∧
    p.m 1 1 = .nan := by
  have h : (streamMatrix (Eucl.genOps zeroMem (fun x => x)) (Eucl.streaming zeroMem 2) 1 2 (some 2) none
      [.series (.d2 [[.fin (1 / 50000000), .fin 5]] 2), .query (.d2 [[.fin 0, .fin 5]] 2), .columns (fun _ => false) (.float (.fin 1))]).map
      (fun p => p.m 1 1) = .ok .nan := by decide +kernel
  generalize streamMatrix (K := ℚ) _ _ _ _ _ _ _ = x at h ⊢
  cases x with
  | error e => exact absurd h (by simp [Except.map])
  | ok p => exact ⟨p, rfl, by simpa [Except.map] using h⟩

/-- Integer data have no tiny distances. -/
theorem noTiny_int [Field K] [LinearOrder K] [IsStrictOrderedRing K] (m : Nat) (s q : List K) (hs : ∀ x ∈ s, ∃ z : ℤ, x = z)
    (hq : ∀ x ∈ q, ∃ z : ℤ, x = z) : Eucl.NoTiny m s q := by
  intro i j _ _
  have h : ∃ z : ℤ, 0 ≤ z ∧ sqd m (seqOf s) (seqOf q) i j = z := by
    have key : ∀ (l : List K), (∀ x ∈ l, ∃ z : ℤ, x = z) → ∀ i, ∃ z : ℤ, seqOf l i = z := by
      intro l hl i
      unfold seqOf
      by_cases h : i < l.length
      · obtain ⟨z, hz⟩ := hl l[i] (by simp)
        exact ⟨z, by simp [h, hz]⟩
      · exact ⟨0, by simp [h]⟩
    choose a ha using key s hs
    choose b hb using key q hq
    refine ⟨∑ k ∈ Finset.range m, (b (i + k) - a (j + k)) ^ 2, Finset.sum_nonneg fun _ _ => sq_nonneg _, ?_⟩
    unfold sqd
    push_cast
    refine Finset.sum_congr rfl fun k _ => ?_
    rw [ha, hb]
    try ring
  obtain ⟨z, h0, h1⟩ := h
  rw [h1]
  rcases h0.eq_or_lt with rfl | h0
  · left; simp
  · right
    have : (1 : K) ≤ z := by exact_mod_cast h0
    unfold Eucl.eps
    norm_num
    linarith

/-- A join whose series window (4 points) overflows twice and whose query window (3 points) overflows once, with columns calculated in
between: the hypotheses of `C61_znorm` and `C61_euclidean_partial`. -/
def exStream : List (MOp ℚ) :=
  [.columns 1, .series [1, 5, 2, 8, 3], .query [4, 4, 7], .columns 2, .series [9], .columns 3, .query [0], .series [2], .columns 3]

example : MSt.init.All 2 4 (some 3) (fun u op => u.Valid 2 (some 3) op ∧
    ∀ k, op = .columns k → Eucl.NoTiny 2 (lastN 4 u.s) (lastN 3 u.q)) exStream := by
  have key : ∀ s q : List ℤ, Eucl.NoTiny 2 (lastN 4 (s.map (fun z : ℤ => (z : ℚ)))) (lastN 3 (q.map (fun z : ℤ => (z : ℚ)))) := by
    intro s q
    refine noTiny_int _ _ _ ?_ ?_ <;>
    · intro x hx
      obtain ⟨z, -, rfl⟩ := List.mem_map.mp (List.mem_of_mem_drop (by simpa [lastN] using hx))
      exact ⟨z, rfl⟩
  have k1 := key [] []
  have k2 := key [1, 5, 2, 8, 3] [4, 4, 7]
  have k3 := key [1, 5, 2, 8, 3, 9] [4, 4, 7]
  have k4 := key [1, 5, 2, 8, 3, 9, 2] [4, 4, 7, 0]
  simp only [List.map_cons, List.map_nil] at k1 k2 k3 k4
  push_cast at k1 k2 k3 k4
  simp [exStream, MSt.All, MSt.step, MSt.init, MSt.Valid, k1, k2, k3, k4]

/-- The calls of `exStream`, with both ways of giving `upto`. -/
def exStreamCalls : List (Streaming.Op ℚ) :=
  [.columns (fun _ => false) (.float (.fin (1 / 3))), .series (.d2 [[.fin 1, .fin 5, .fin 2, .fin 8, .fin 3]] 5),
   .query (.d2 [[.fin 4, .fin 4, .fin 7]] 3), .columns (fun _ => false) (.int 2), .series (.d1 [.fin 9]),
   .columns (fun _ => false) (.float (.fin 1)), .query (.d1 [.fin 0]), .series (.d1 [.fin 2]), .columns (fun _ => false) (.int 3)]

example : List.Forall₂ (IsCall (4 + 1 - 2)) exStream exStreamCalls := by
  simp [exStream, exStreamCalls, IsCall]
  norm_num

/-- What the matrix shows: columns 0 and 1 were calculated before the query moved, so their last row has not been calculated. -/
example : (streamMatrix (Eucl.genOps zeroMem id) (Eucl.streaming zeroMem 2) 2 4 (some 3) none exStreamCalls).map
    (fun p => (List.range 2).map fun r => (List.range 3).map (p.m r)) = .ok [[.fin 32, .fin 5, .fin 50], [.nan, .nan, .fin 8]] := by
  decide +kernel

/-- A self-join with an overflowing window. -/
example : MSt.init.All 2 4 none (fun u op => u.Valid 2 none op)
    [.series [1, 5, 2], .columns 1, .series [8, 3, 9], .columns 2, .series [2], .columns (3 : Int)] := by
  simp [MSt.All, MSt.step, MSt.init, MSt.Valid]

end Verif
