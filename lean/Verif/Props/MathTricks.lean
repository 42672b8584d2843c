import Verif.Model.MathTricks
import Verif.Spec.Stats
import Verif.Lemmas.RBGood
import Verif.Lemmas.Windows
import Mathlib.Tactic.Ring

/-!
# C15, C16: moving mean / standard deviation
-/

namespace Verif
open Spec

theorem map_toReal_fin (xs : List ℝ) : (xs.map Fl.fin).map Fl.toReal = xs := by
  rw [List.map_map]
  conv_rhs => rw [← List.map_id xs]
  rfl

theorem all_isFinite_iff (l : List (Fl ℝ)) : l.all Fl.isFinite = true ↔ ∃ xs : List ℝ, l = xs.map Fl.fin := by
  constructor
  · intro h
    refine ⟨l.map Fl.toReal, ?_⟩
    rw [List.map_map]
    conv_lhs => rw [← List.map_id l]
    apply List.map_congr_left
    intro x hx
    have := List.all_eq_true.mp h x hx
    cases x <;> simp_all [Fl.isFinite, Fl.toReal]
  · rintro ⟨xs, rfl⟩
    simp [Fl.isFinite]

theorem sum_window (xs : List ℝ) (f : ℝ → ℝ) (m i : Nat) (h : i + m ≤ xs.length) :
    (((xs.drop i).take m).map f).sum = ∑ k ∈ Finset.range m, f (seqOf xs (i + k)) := by
  induction m with
  | zero => simp
  | succ m ih =>
    rw [Finset.sum_range_succ, ← ih (by omega), List.take_succ, List.getElem?_drop,
      List.getElem?_eq_getElem (by omega)]
    simp [seqOf, List.getD, List.getElem?_eq_getElem (show i + m < xs.length by omega)]

theorem npMean_window (xs : List ℝ) (m i : Nat) (h : i + m ≤ xs.length) :
    npMean ((xs.drop i).take m) = mean m (seqOf xs) i := by
  have := sum_window xs id m i h
  rw [List.map_id] at this
  unfold npMean mean
  rw [this]
  simp
  congr 2
  rw [min_eq_left]; exact_mod_cast (by omega : m ≤ xs.length - i)

theorem npVar_window (xs : List ℝ) (m i : Nat) (h : i + m ≤ xs.length) :
    npVar ((xs.drop i).take m) = var m (seqOf xs) i := by
  unfold npVar
  rw [npMean_window xs m i h]
  unfold npMean var
  rw [sum_window xs (fun x => (x - mean m (seqOf xs) i) ^ 2) m i h]
  congr 1
  simp
  omega

theorem npStd_window (xs : List ℝ) (m i : Nat) (h : i + m ≤ xs.length) :
    npStd ((xs.drop i).take m) = std m (seqOf xs) i := by
  unfold npStd std
  rw [npVar_window xs m i h]

theorem map_windows (xs : List ℝ) (m : Nat) {β : Type} (f : List ℝ → β) (g : Nat → β)
    (h : ∀ i, i + m ≤ xs.length → f ((xs.drop i).take m) = g i) :
    (windows m xs).map f = (List.range (xs.length + 1 - m)).map g := by
  unfold windows
  rw [List.map_map]
  apply List.map_congr_left
  intro i hi
  exact h i (by have := List.mem_range.mp hi; omega)

theorem slidingGuard_ok (xs : List ℝ) (m : Nat) (hm : 0 < m) (h : m ≤ xs.length) :
    slidingGuard (xs.map .fin) m = .ok (windows m xs) := by
  have hf : (xs.map Fl.fin).all Fl.isFinite = true := (all_isFinite_iff _).mpr ⟨xs, rfl⟩
  unfold slidingGuard
  rw [if_neg (by omega), hf, if_neg (by simp), map_toReal_fin, Int.toNat_natCast, slidingWindows_ok xs m hm h]

theorem slidingMeanStd_ok (xs : List ℝ) (m : Nat) (hm : 0 < m) (h : m ≤ xs.length) :
    slidingMeanStd (xs.map .fin) m = .ok ((windows m xs).map npMean, (windows m xs).map npStd) := by
  unfold slidingMeanStd
  rw [slidingGuard_ok xs m hm h]; rfl

theorem slidingGuard_err (series : List (Fl ℝ)) (m : Int)
    (h : m ≤ 0 ∨ (series.length : Int) < m ∨ ∃ x ∈ series, x.isFinite = false) :
    ∃ e, slidingGuard series m = .error e := by
  unfold slidingGuard
  split
  · exact ⟨_, rfl⟩
  · rename_i hm
    split
    · exact ⟨_, rfl⟩
    · rename_i hf
      rcases h with h | h | ⟨x, hx, hx'⟩
      · omega
      · refine ⟨.valueError, ?_⟩
        apply slidingWindows_err
        simp; omega
      · exfalso
        have := List.all_eq_true.mp (by simpa using hf) x hx
        rw [hx'] at this; cases this

/-! ### C15 -/

theorem capacity_two (n : Nat) : RB.capacity 2 n = 2 * n := by
  unfold RB.capacity
  rw [show (2 : ℚ) * n = ((2 * n : ℕ) : ℚ) by push_cast; rfl, Int.ceil_natCast, Int.toNat_natCast]

/-- **C15**: `sliding_mean_std` of a finite series is the moving mean and the moving population standard deviation. -/
theorem C15_sliding_mean_std (xs : List ℝ) (m : Nat) (hm : 0 < m) (h : m ≤ xs.length) :
    slidingMeanStd (xs.map .fin) m =
      .ok ((List.range (xs.length - m + 1)).map (mean m (seqOf xs)), (List.range (xs.length - m + 1)).map (std m (seqOf xs))) := by
  rw [slidingMeanStd_ok xs m hm h, map_windows xs m npMean _ (fun i => npMean_window xs m i),
    map_windows xs m npStd _ (fun i => npStd_window xs m i), show xs.length + 1 - m = xs.length - m + 1 by omega]

example := C15_sliding_mean_std [1, 3, 3] 2 (by decide) (by decide)

/-- **C15**: `sliding_mean_var` of a finite series is the moving mean and the moving population variance. -/
theorem C15_sliding_mean_var (xs : List ℝ) (m : Nat) (hm : 0 < m) (h : m ≤ xs.length) :
    slidingMeanVar (xs.map .fin) m =
      .ok ((List.range (xs.length - m + 1)).map (mean m (seqOf xs)), (List.range (xs.length - m + 1)).map (var m (seqOf xs))) := by
  unfold slidingMeanVar
  rw [slidingGuard_ok xs m hm h, show xs.length - m + 1 = xs.length + 1 - m by omega,
    ← map_windows xs m npMean _ (fun i => npMean_window xs m i),
    ← map_windows xs m npVar _ (fun i => npVar_window xs m i)]
  rfl

example := C15_sliding_mean_var [1, 3, 3] 2 (by decide) (by decide)

/-- **C15**: a non-positive window, a window longer than the series or a non-finite value raises, in both functions. -/
theorem C15_guards (series : List (Fl ℝ)) (m : Int)
    (h : m ≤ 0 ∨ (series.length : Int) < m ∨ ∃ x ∈ series, x.isFinite = false) :
    (∃ e, slidingMeanStd series m = .error e) ∧ (∃ e, slidingMeanVar series m = .error e) := by
  obtain ⟨e, he⟩ := slidingGuard_err series m h
  exact ⟨⟨e, by simp [slidingMeanStd, he, bind, Except.bind]⟩, ⟨e, by simp [slidingMeanVar, he, bind, Except.bind]⟩⟩

/-- Concrete case: windows of length 2 over 1, 3, 3. -/
example : mean 2 (seqOf [1, 3, 3]) 0 = 2 ∧ var 2 (seqOf [1, 3, 3]) 0 = 1 ∧ std 2 (seqOf [1, 3, 3]) 0 = 1 ∧ std 2 (seqOf [1, 3, 3]) 1 = 0 := by
  have h1 : mean 2 (seqOf [1, 3, 3]) 0 = 2 := by norm_num [mean, seqOf, Finset.sum_range_succ]
  have h2 : var 2 (seqOf [1, 3, 3]) 0 = 1 := by rw [var, h1]; norm_num [seqOf, Finset.sum_range_succ]
  have h3 : mean 2 (seqOf [1, 3, 3]) 1 = 3 := by norm_num [mean, seqOf, Finset.sum_range_succ]
  have h4 : var 2 (seqOf [1, 3, 3]) 1 = 0 := by rw [var, h3]; norm_num [seqOf, Finset.sum_range_succ]
  exact ⟨h1, h2, by rw [std, h2]; simp, by rw [std, h4]; simp⟩
example : ∃ e, slidingMeanStd [.fin 1, .nan, .fin 2] 2 = .error e :=
  (C15_guards _ _ (Or.inr (Or.inr ⟨.nan, by simp, rfl⟩))).1

/-! ### C16 -/

/-- A sequence of `append` calls; stops at the first one that raises. -/
noncomputable def Stats.appends (s : Stats) : List (List (Fl ℝ)) → Stats × Option PyErr
  | [] => (s, none)
  | d :: ds => match s.append d with
      | (s, none) => s.appends ds
      | (s, some e) => (s, some e)

/-- Invariant: three buffers in step. -/
structure Stats.Inv (s : Stats) (n m : Nat) (xs : List ℝ) : Prop where
  m_eq : s.m = m
  data : s.data.Good n
  mean : s.mean.Good (n + 1 - m)
  std : s.std.Good (n + 1 - m)
  full : xs.length = n
  items : s.data.items = xs.map .fin
  means : s.mean.items = (windows m xs).map npMean
  stds : s.std.items = (windows m xs).map npStd

theorem Stats.init_inv (xs : List ℝ) (m : Nat) (hm : 0 < m) (h : m ≤ xs.length) (j1 : List (Fl ℝ)) (j2 j3 : List ℝ)
    (h1 : j1.length = RB.capacity 2 xs.length) (h2 : j2.length = RB.capacity 2 (xs.length + 1 - m))
    (h3 : j3.length = RB.capacity 2 (xs.length + 1 - m)) :
    ∃ s, Stats.init (xs.map .fin) m j1 j2 j3 = .ok s ∧ s.Inv xs.length m xs := by
  obtain ⟨d, hd, hdg, hdi, -⟩ := RB.init_data_good [] (xs.map Fl.fin)
    (by intro h0; have := congrArg List.length h0; simp only [List.length_map, windows_length, List.length_nil] at this; omega) false j1 (by simpa using h1)
  obtain ⟨a, ha, hag, hai, -⟩ := RB.init_data_good [] ((windows m xs).map npMean)
    (by intro h0; have := congrArg List.length h0; simp at this; omega) false j2 (by simpa using h2)
  obtain ⟨b, hb, hbg, hbi, -⟩ := RB.init_data_good [] ((windows m xs).map npStd)
    (by intro h0; have := congrArg List.length h0; simp at this; omega) false j3 (by simpa using h3)
  refine ⟨⟨m, d, a, b⟩, ?_, ⟨rfl, by simpa using hdg, by simpa using hag, by simpa using hbg, rfl, hdi, hai, hbi⟩⟩
  unfold Stats.init
  rw [if_neg (by rw [List.length_map]; omega), hd, slidingMeanStd_ok xs m hm h]
  simp only [bind, Except.bind, pure, Except.pure, ha, hb]

theorem Stats.append_inv (s : Stats) (n m : Nat) (xs d : List ℝ) (hm : 0 < m) (hn : m ≤ n) (h : s.Inv n m xs) :
    ∃ s', s.append (d.map .fin) = (s', none) ∧ s'.Inv n m (lastN n (xs ++ d)) := by
  unfold Stats.append
  by_cases h0 : (d.map Fl.fin).length = 0
  · rw [if_pos h0]
    refine ⟨s, rfl, ?_⟩
    have : d = [] := by simpa using h0
    subst this
    rw [List.append_nil, lastN_of_le _ _ (by rw [h.full])]
    exact h
  · rw [if_neg h0]
    obtain ⟨d', hd, hdg, hdi, -⟩ := h.data.push (d.map Fl.fin)
    have hitems : d'.items = (lastN n (xs ++ d)).map Fl.fin := by
      rw [hdi, h.items, ← List.map_append, lastN_map]
    have hlen : (lastN n (xs ++ d)).length = n := by
      rw [lastN_length, List.length_append, h.full]; omega
    have hmax : max (-(m : Int) - 1 - (d.map Fl.fin).length) 0 = ((0 : Nat) : Int) := by omega
    simp only [hd, h.m_eq]
    rw [hmax, pyFrom_nat, List.drop_zero, hitems, slidingMeanStd_ok _ m hm (by omega)]
    obtain ⟨a, ha, hag, hai, -⟩ := h.mean.push ((windows m (lastN n (xs ++ d))).map npMean)
    obtain ⟨b, hb, hbg, hbi, -⟩ := h.std.push ((windows m (lastN n (xs ++ d))).map npStd)
    simp only [ha, hb]
    refine ⟨_, rfl, ⟨rfl, hdg, hag, hbg, hlen, hitems, ?_, ?_⟩⟩
    · show a.items = _
      rw [hai, lastN_append_right _ _ _ (by rw [List.length_map, windows_length, hlen]), lastN_of_le _ _ (by rw [List.length_map, windows_length, hlen])]
    · show b.items = _
      rw [hbi, lastN_append_right _ _ _ (by rw [List.length_map, windows_length, hlen]), lastN_of_le _ _ (by rw [List.length_map, windows_length, hlen])]

theorem Stats.appends_inv (s : Stats) (n m : Nat) (xs : List ℝ) (ds : List (List ℝ)) (hm : 0 < m) (hn : m ≤ n)
    (h : s.Inv n m xs) :
    ∃ s', s.appends (ds.map (·.map .fin)) = (s', none) ∧ s'.Inv n m (lastN n (xs ++ ds.flatten)) := by
  induction ds generalizing s xs with
  | nil =>
    refine ⟨s, rfl, ?_⟩
    rw [List.flatten_nil, List.append_nil, lastN_of_le _ _ (by rw [h.full])]
    exact h
  | cons d ds ih =>
    obtain ⟨s1, h1, h2⟩ := s.append_inv n m xs d hm hn h
    obtain ⟨s2, h3, h4⟩ := ih s1 _ h2
    refine ⟨s2, ?_, ?_⟩
    · simp only [List.map_cons, Stats.appends, h1]; exact h3
    · rw [List.flatten_cons, ← List.append_assoc, ← lastN_lastN_append]; exact h4

/-- **C16** (partial): after any sequence of appends of finite data, `data` is the newest window of the stream and
`mean`/`std` are the moving mean/standard deviation of exactly that window. Missing: chunks with non-finite values, for
which the property is false, see `C16_rejected_append_desynchronises`. -/
theorem C16_streaming_stats_partial (xs : List ℝ) (m : Nat) (hm : 0 < m) (h : m ≤ xs.length) (j1 : List (Fl ℝ))
    (j2 j3 : List ℝ) (h1 : j1.length = RB.capacity 2 xs.length) (h2 : j2.length = RB.capacity 2 (xs.length + 1 - m))
    (h3 : j3.length = RB.capacity 2 (xs.length + 1 - m)) (chunks : List (List ℝ)) :
    ∃ s0 s, Stats.init (xs.map .fin) m j1 j2 j3 = .ok s0 ∧ s0.appends (chunks.map (·.map .fin)) = (s, none) ∧
      ∃ w : List ℝ, w = lastN xs.length (xs ++ chunks.flatten) ∧ s.data.items = w.map .fin ∧
        s.mean.items = (List.range (xs.length - m + 1)).map (mean m (seqOf w)) ∧
        s.std.items = (List.range (xs.length - m + 1)).map (std m (seqOf w)) := by
  obtain ⟨s0, hs0, hi0⟩ := Stats.init_inv xs m hm h j1 j2 j3 h1 h2 h3
  obtain ⟨s, hs, hi⟩ := Stats.appends_inv s0 _ m xs chunks hm h hi0
  refine ⟨s0, s, hs0, hs, _, rfl, hi.items, ?_, ?_⟩
  · rw [hi.means, map_windows _ m npMean _ (fun i => npMean_window _ m i), hi.full]
    congr 2; omega
  · rw [hi.stds, map_windows _ m npStd _ (fun i => npStd_window _ m i), hi.full]
    congr 2; omega

example := C16_streaming_stats_partial [1, 3, 3] 2 (by decide) (by decide) (List.replicate 6 .nan) [0, 0, 0, 0] [0, 0, 0, 0]
  (by rw [capacity_two]; rfl) (by rw [capacity_two]; rfl) (by rw [capacity_two]; rfl) [[4], [], [5, 7]]

/-- **C16** is false in general: for every instance over finite data, appending a single NaN raises, but `data` has been
shifted already while `mean` and `std` still describe the old window. -/
theorem C16_rejected_append_desynchronises (xs : List ℝ) (m : Nat) (hm : 0 < m) (h : m ≤ xs.length) (j1 : List (Fl ℝ))
    (j2 j3 : List ℝ) (h1 : j1.length = RB.capacity 2 xs.length) (h2 : j2.length = RB.capacity 2 (xs.length + 1 - m))
    (h3 : j3.length = RB.capacity 2 (xs.length + 1 - m)) :
    ∃ s0 s e, Stats.init (xs.map .fin) m j1 j2 j3 = .ok s0 ∧ s0.append [.nan] = (s, some e) ∧
      s.data.items = (xs.drop 1).map .fin ++ [.nan] ∧ s.mean = s0.mean ∧ s.std = s0.std := by
  obtain ⟨s0, hs0, hi⟩ := Stats.init_inv xs m hm h j1 j2 j3 h1 h2 h3
  obtain ⟨d', hd, hdg, hdi, -⟩ := hi.data.push [Fl.nan]
  have hitems : d'.items = (xs.drop 1).map .fin ++ [.nan] := by
    rw [hdi, hi.items, lastN, List.drop_append_of_le_length (by simp; omega)]
    simp
  obtain ⟨e, he⟩ := (C15_guards (pyFrom d'.items (max (-(m : Int) - 1 - ([Fl.nan] : List (Fl ℝ)).length) 0)) m
    (Or.inr (Or.inr ⟨.nan, by
      rw [show max (-(m : Int) - 1 - ([Fl.nan] : List (Fl ℝ)).length) 0 = ((0 : Nat) : Int) by omega, pyFrom_nat, hitems]
      simp, rfl⟩))).1
  refine ⟨s0, { s0 with data := d' }, e, hs0, ?_, hitems, rfl, rfl⟩
  unfold Stats.append
  rw [if_neg (by simp)]
  simp only [hd, hi.m_eq, he]

example := C16_rejected_append_desynchronises [1, 3, 3] 2 (by decide) (by decide) (List.replicate 6 .nan) [0, 0, 0, 0] [0, 0, 0, 0]
  (by rw [capacity_two]; rfl) (by rw [capacity_two]; rfl) (by rw [capacity_two]; rfl)

/-- The constructor raises if the window is longer than the series (math_tricks.py:67-68). -/
theorem C16_init_guard (xs : List (Fl ℝ)) (m : Int) (h : (xs.length : Int) < m) (j1 : List (Fl ℝ)) (j2 j3 : List ℝ) :
    Stats.init xs m j1 j2 j3 = .error .runtimeError := by
  unfold Stats.init
  rw [if_pos h]

example := C16_init_guard [.fin 1, .nan] 3 (by decide) [] [] []

/-- Concrete case: window of 3 points, m = 2, three chunks. -/
example : ∃ s0 s, Stats.init ([1, 3, 3].map .fin) (2 : Nat) (List.replicate 6 .nan) [0, 0, 0, 0] [0, 0, 0, 0] = .ok s0 ∧
    s0.appends [[.fin 4], [], [.fin 5, .fin 7]] = (s, none) ∧ s.data.items = [.fin 4, .fin 5, .fin 7] := by
  have hc : ∀ n : Nat, RB.capacity 2 n = 2 * n := by
    intro n
    have := capacity_le_two_mul 2 n le_rfl
    unfold RB.capacity
    rw [show (2 : ℚ) * n = ((2 * n : ℕ) : ℚ) by push_cast; rfl, Int.ceil_natCast, Int.toNat_natCast]
  obtain ⟨s0, s, ha, hb, w, rfl, hd, -, -⟩ := C16_streaming_stats_partial [1, 3, 3] 2 (by norm_num) (by norm_num)
    (List.replicate 6 .nan) [0, 0, 0, 0] [0, 0, 0, 0] (by rw [hc]; simp) (by rw [hc]; simp) (by rw [hc]; simp) [[4], [], [5, 7]]
  exact ⟨s0, s, ha, hb, hd⟩

/-! ### C77: starting on integers -/

/-- A sequence of `append` calls; stops at the first one that raises. -/
noncomputable def IntStats.appends (bad : Fl ℝ → ℤ) (s : IntStats) : List (List (Fl ℝ)) → IntStats × Option PyErr
  | [] => (s, none)
  | d :: ds => match s.append bad d with
      | (s, none) => s.appends bad ds
      | (s, some e) => (s, some e)

/-- Invariant: three buffers in step. -/
structure IntStats.Inv (s : IntStats) (n m : Nat) (xs : List ℤ) : Prop where
  m_eq : s.m = m
  data : s.data.Good n
  mean : s.mean.Good (n + 1 - m)
  std : s.std.Good (n + 1 - m)
  full : xs.length = n
  items : s.data.items = xs
  means : s.mean.items = (windows m (xs.map fun k : ℤ => (k : ℝ))).map npMean
  stds : s.std.items = (windows m (xs.map fun k : ℤ => (k : ℝ))).map npStd

theorem asFloats_eq (xs : List ℤ) : asFloats xs = (xs.map fun k : ℤ => (k : ℝ)).map .fin := by
  unfold asFloats
  rw [List.map_map]
  rfl

theorem IntStats.init_inv (xs : List ℤ) (m : Nat) (hm : 0 < m) (h : m ≤ xs.length) (j1 : List ℤ) (j2 j3 : List ℝ)
    (h1 : j1.length = RB.capacity 2 xs.length) (h2 : j2.length = RB.capacity 2 (xs.length + 1 - m))
    (h3 : j3.length = RB.capacity 2 (xs.length + 1 - m)) : ∃ s, IntStats.init xs m j1 j2 j3 = .ok s ∧ s.Inv xs.length m xs := by
  obtain ⟨d, hd, hdg, hdi, -⟩ := RB.init_data_good [] xs (by rintro rfl; simp at h; omega) false j1 (by simpa using h1)
  obtain ⟨a, ha, hag, hai, -⟩ := RB.init_data_good [] ((windows m (xs.map fun k : ℤ => (k : ℝ))).map npMean)
    (by intro h0; have := congrArg List.length h0; simp at this; omega) false j2 (by simpa using h2)
  obtain ⟨b, hb, hbg, hbi, -⟩ := RB.init_data_good [] ((windows m (xs.map fun k : ℤ => (k : ℝ))).map npStd)
    (by intro h0; have := congrArg List.length h0; simp at this; omega) false j3 (by simpa using h3)
  refine ⟨⟨m, d, a, b⟩, ?_, ⟨rfl, by simpa using hdg, by simpa using hag, by simpa using hbg, rfl, hdi, hai, hbi⟩⟩
  unfold IntStats.init
  rw [if_neg (by omega), hd, asFloats_eq, slidingMeanStd_ok _ m hm (by simpa using h)]
  simp only [bind, Except.bind, pure, Except.pure, ha, hb]

theorem IntStats.append_inv (bad : Fl ℝ → ℤ) (s : IntStats) (n m : Nat) (xs : List ℤ) (d : List (Fl ℝ)) (hm : 0 < m) (hn : m ≤ n) (h : s.Inv n m xs) :
    ∃ s', s.append bad d = (s', none) ∧ s'.Inv n m (lastN n (xs ++ d.map (toInt bad))) := by
  unfold IntStats.append
  by_cases h0 : d.length = 0
  · rw [if_pos h0]
    refine ⟨s, rfl, ?_⟩
    have : d = [] := by simpa using h0
    subst this
    rw [List.map_nil, List.append_nil, lastN_of_le _ _ (by rw [h.full])]
    exact h
  · rw [if_neg h0]
    obtain ⟨d', hd, hdg, hdi, -⟩ := h.data.push (d.map (toInt bad))
    have hitems : d'.items = lastN n (xs ++ d.map (toInt bad)) := by rw [hdi, h.items]
    have hlen : (lastN n (xs ++ d.map (toInt bad))).length = n := by
      rw [lastN_length, List.length_append, h.full]; omega
    have hmax : max (-(m : Int) - 1 - d.length) 0 = ((0 : Nat) : Int) := by omega
    simp only [hd, h.m_eq]
    rw [hmax, pyFrom_nat, List.drop_zero, hitems, asFloats_eq, slidingMeanStd_ok _ m hm (by rw [List.length_map]; omega)]
    obtain ⟨a, ha, hag, hai, -⟩ := h.mean.push ((windows m ((lastN n (xs ++ d.map (toInt bad))).map fun k : ℤ => (k : ℝ))).map npMean)
    obtain ⟨b, hb, hbg, hbi, -⟩ := h.std.push ((windows m ((lastN n (xs ++ d.map (toInt bad))).map fun k : ℤ => (k : ℝ))).map npStd)
    simp only [ha, hb]
    refine ⟨_, rfl, ⟨rfl, hdg, hag, hbg, hlen, hitems, ?_, ?_⟩⟩
    · show a.items = _
      rw [hai, lastN_append_right _ _ _ (by rw [List.length_map, windows_length, List.length_map, hlen]),
        lastN_of_le _ _ (by rw [List.length_map, windows_length, List.length_map, hlen])]
    · show b.items = _
      rw [hbi, lastN_append_right _ _ _ (by rw [List.length_map, windows_length, List.length_map, hlen]),
        lastN_of_le _ _ (by rw [List.length_map, windows_length, List.length_map, hlen])]

theorem IntStats.appends_inv (bad : Fl ℝ → ℤ) (s : IntStats) (n m : Nat) (xs : List ℤ) (ds : List (List (Fl ℝ))) (hm : 0 < m) (hn : m ≤ n)
    (h : s.Inv n m xs) : ∃ s', s.appends bad ds = (s', none) ∧ s'.Inv n m (lastN n (xs ++ ds.flatten.map (toInt bad))) := by
  induction ds generalizing s xs with
  | nil =>
    refine ⟨s, rfl, ?_⟩
    rw [List.flatten_nil, List.map_nil, List.append_nil, lastN_of_le _ _ (by rw [h.full])]
    exact h
  | cons d ds ih =>
    obtain ⟨s1, h1, h2⟩ := s.append_inv bad n m xs d hm hn h
    obtain ⟨s2, h3, h4⟩ := ih s1 _ h2
    refine ⟨s2, ?_, ?_⟩
    · simp only [IntStats.appends, h1]; exact h3
    · rw [List.flatten_cons, List.map_append, ← List.append_assoc, ← lastN_lastN_append]; exact h4

/-- What happens in general: appends to an instance started on integers never raise, whatever the data (not even for NaN), and `data` is the newest window
of the stream *with the fractions dropped*; `mean` and `std` describe that window. -/
theorem C77_truncated (bad : Fl ℝ → ℤ) (xs : List ℤ) (m : Nat) (hm : 0 < m) (h : m ≤ xs.length) (j1 : List ℤ)
    (j2 j3 : List ℝ) (h1 : j1.length = RB.capacity 2 xs.length) (h2 : j2.length = RB.capacity 2 (xs.length + 1 - m))
    (h3 : j3.length = RB.capacity 2 (xs.length + 1 - m)) (chunks : List (List (Fl ℝ))) :
    ∃ s0 s, IntStats.init xs m j1 j2 j3 = .ok s0 ∧ s0.appends bad chunks = (s, none) ∧
      ∃ w : List ℤ, w = lastN xs.length (xs ++ chunks.flatten.map (toInt bad)) ∧ s.data.items = w ∧
        s.mean.items = (List.range (xs.length - m + 1)).map (mean m (seqOf (w.map fun k : ℤ => (k : ℝ)))) ∧
        s.std.items = (List.range (xs.length - m + 1)).map (std m (seqOf (w.map fun k : ℤ => (k : ℝ)))) := by
  obtain ⟨s0, hs0, hi0⟩ := IntStats.init_inv xs m hm h j1 j2 j3 h1 h2 h3
  obtain ⟨s, hs, hi⟩ := IntStats.appends_inv bad s0 _ m xs chunks hm h hi0
  refine ⟨s0, s, hs0, hs, _, rfl, hi.items, ?_, ?_⟩
  · rw [hi.means, map_windows _ m npMean _ (fun i => npMean_window _ m i), List.length_map, hi.full]
    congr 2; omega
  · rw [hi.stds, map_windows _ m npStd _ (fun i => npStd_window _ m i), List.length_map, hi.full]
    congr 2; omega

example (bad : Fl ℝ → ℤ) := C77_truncated bad [1, 3, 3] 2 (by decide) (by decide) (List.replicate 6 7) [0, 0, 0, 0] [0, 0, 0, 0]
  (by rw [capacity_two]; rfl) (by rw [capacity_two]; rfl) (by rw [capacity_two]; rfl) [[.fin (7 / 2)], [], [.nan, .fin (-1 / 2)]]

/-- **C77** (part): started on integers, after any appends of whole numbers, `data` is the newest window of the stream, `mean` and `std` are its moving mean and
standard deviation. Missing: data with fractions, for which it is false, see `C77_wrong`. -/
theorem C77_partial (bad : Fl ℝ → ℤ) (xs : List ℤ) (m : Nat) (hm : 0 < m) (h : m ≤ xs.length) (j1 : List ℤ)
    (j2 j3 : List ℝ) (h1 : j1.length = RB.capacity 2 xs.length) (h2 : j2.length = RB.capacity 2 (xs.length + 1 - m))
    (h3 : j3.length = RB.capacity 2 (xs.length + 1 - m)) (chunks : List (List ℤ)) :
    ∃ s0 s, IntStats.init xs m j1 j2 j3 = .ok s0 ∧ s0.appends bad (chunks.map asFloats) = (s, none) ∧
      ∃ w : List ℤ, w = lastN xs.length (xs ++ chunks.flatten) ∧ s.data.items = w ∧
        s.mean.items = (List.range (xs.length - m + 1)).map (mean m (seqOf (w.map fun k : ℤ => (k : ℝ)))) ∧
        s.std.items = (List.range (xs.length - m + 1)).map (std m (seqOf (w.map fun k : ℤ => (k : ℝ)))) := by
  obtain ⟨s0, s, e1, e2, w, rfl, e3⟩ := C77_truncated bad xs m hm h j1 j2 j3 h1 h2 h3 (chunks.map asFloats)
  refine ⟨s0, s, e1, e2, _, ?_, e3⟩
  congr 2
  have : (chunks.map asFloats).flatten = asFloats chunks.flatten := by
    unfold asFloats
    rw [List.map_flatten]
  rw [this]
  unfold asFloats
  rw [List.map_map]
  conv_rhs => rw [← List.map_id chunks.flatten]
  refine List.map_congr_left fun k _ => ?_
  show (if 0 ≤ (k : ℝ) then ⌊(k : ℝ)⌋ else ⌈(k : ℝ)⌉) = k
  rw [Int.floor_intCast, Int.ceil_intCast, ite_self]

/-- **C77** is false in general: the same stream, started on the integers 1, 2 or on the floats 1, 2. After appending 7/2 the window of the first ends with 3, that of
the second with 7/2. -/
theorem C77_wrong (bad : Fl ℝ → ℤ) (j1 : List ℤ) (j1' : List (Fl ℝ)) (j2 j3 : List ℝ) (h1 : j1.length = RB.capacity 2 2) (h1' : j1'.length = RB.capacity 2 2)
    (h2 : j2.length = RB.capacity 2 1) (h3 : j3.length = RB.capacity 2 1) :
    (∃ s0 s, IntStats.init [1, 2] (2 : Nat) j1 j2 j3 = .ok s0 ∧ s0.append bad [.fin (7 / 2)] = (s, none) ∧ s.data.items = [2, 3] ∧ s.mean.items = [5 / 2]) ∧
    (∃ s0 s, Stats.init [.fin 1, .fin 2] (2 : Nat) j1' j2 j3 = .ok s0 ∧ s0.append [.fin (7 / 2)] = (s, none) ∧ s.data.items = [.fin 2, .fin (7 / 2)] ∧
      s.mean.items = [11 / 4]) := by
  have hf : ⌊(7 / 2 : ℝ)⌋ = 3 := by rw [Int.floor_eq_iff]; norm_num
  constructor
  · obtain ⟨s0, s, e1, e2, w, rfl, e3, e4, -⟩ := C77_truncated bad [1, 2] 2 (by norm_num) (by norm_num) j1 j2 j3 h1 h2 h3 [[.fin (7 / 2)]]
    have e2' : s0.append bad [.fin (7 / 2)] = (s, none) := by
      unfold IntStats.appends at e2
      revert e2
      generalize s0.append bad [.fin (7 / 2)] = r
      rcases r with ⟨r, _ | e⟩
      · exact fun h => h
      · exact fun h => by simp at h
    have hw : lastN [(1 : ℤ), 2].length ([1, 2] ++ [[Fl.fin (7 / 2 : ℝ)]].flatten.map (toInt bad)) = [2, 3] := by
      norm_num [toInt, lastN, hf]
    rw [hw] at e3 e4
    refine ⟨s0, s, e1, e2', e3, ?_⟩
    rw [e4]
    norm_num [mean, seqOf, Finset.sum_range_succ]
  · obtain ⟨s0, s, e1, e2, w, rfl, e3, e4, -⟩ := C16_streaming_stats_partial [1, 2] 2 (by norm_num) (by norm_num) j1' j2 j3 h1' h2 h3 [[7 / 2]]
    have e2' : s0.append [.fin (7 / 2)] = (s, none) := by
      simp only [List.map_cons, List.map_nil] at e2
      unfold Stats.appends at e2
      revert e2
      generalize s0.append [.fin (7 / 2)] = r
      rcases r with ⟨r, _ | e⟩
      · exact fun h => h
      · exact fun h => by simp at h
    have hw : lastN [(1 : ℝ), 2].length ([1, 2] ++ [[(7 / 2 : ℝ)]].flatten) = [2, 7 / 2] := by simp [lastN]
    rw [hw] at e3 e4
    refine ⟨s0, s, e1, e2', by simpa using e3, ?_⟩
    rw [e4]
    norm_num [mean, seqOf, Finset.sum_range_succ]

example (bad : Fl ℝ → ℤ) := C77_wrong bad (List.replicate 4 7) (List.replicate 4 .nan) [0, 0] [0, 0] (by rw [capacity_two]; rfl)
  (by rw [capacity_two]; rfl) (by rw [capacity_two]; rfl) (by rw [capacity_two]; rfl)

/-- Concrete case: whole numbers in chunks. -/
example (bad : Fl ℝ → ℤ) : ∃ s0 s, IntStats.init [1, 3, 3] (2 : Nat) (List.replicate 6 7) [0, 0, 0, 0] [0, 0, 0, 0] = .ok s0 ∧
    s0.appends bad ([[4], [], [5, -7]].map asFloats) = (s, none) ∧ s.data.items = [4, 5, -7] := by
  have hc : ∀ n : Nat, RB.capacity 2 n = 2 * n := by
    intro n
    unfold RB.capacity
    rw [show (2 : ℚ) * n = ((2 * n : ℕ) : ℚ) by push_cast; rfl, Int.ceil_natCast, Int.toNat_natCast]
  obtain ⟨s0, s, ha, hb, w, rfl, hd, -, -⟩ := C77_partial bad [1, 3, 3] 2 (by norm_num) (by norm_num)
    (List.replicate 6 7) [0, 0, 0, 0] [0, 0, 0, 0] (by rw [hc]; simp) (by rw [hc]; simp) (by rw [hc]; simp) [[4], [], [5, -7]]
  exact ⟨s0, s, ha, hb, hd⟩

end Verif
