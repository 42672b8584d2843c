import Verif.Model.RadiusProfile
import Verif.Props.Insights
import Verif.Props.DistancedThreshold
import Verif.Lemmas.Calculator

/-!
# C48, C49: `RadiusProfile0` and `RadiusProfile`
-/

namespace Verif
variable {K : Type} [LinearOrder K]

/-- `v` is the `k`-th smallest entry (0-based, NaN counting as largest): at most `k` entries are smaller, more than `k` are not larger. -/
def Spec.IsKth (vals : List (Fl K)) (k : Nat) (v : Fl K) : Prop :=
  v ∈ vals ∧ (vals.countP fun x => decide (x < v)) ≤ k ∧ k < vals.countP fun x => decide (x ≤ v)

theorem Spec.IsKth.unique {vals : List (Fl K)} {k : Nat} {v v' : Fl K} (h : IsKth vals k v) (h' : IsKth vals k v') : v = v' := by
  have key : ∀ {u u' : Fl K}, IsKth vals k u → IsKth vals k u' → ¬ u < u' := by
    intro u u' h h' hlt
    have : (vals.countP fun x => decide (x ≤ u)) ≤ vals.countP fun x => decide (x < u') :=
      List.countP_mono_left fun x _ hx => by simp at hx ⊢; exact lt_of_le_of_lt hx hlt
    have := h.2.2
    have := h'.2.1
    omega
  rcases lt_trichotomy v v' with h1 | h1 | h1
  · exact absurd h1 (key h h')
  · exact h1
  · exact absurd h1 (key h' h)

theorem npSort_kth (vals : List (Fl K)) (k : Nat) (v : Fl K) (hv : (npSort vals)[k]? = some v) : Spec.IsKth vals k v := by
  have hperm : (npSort vals).Perm vals := List.perm_insertionSort _ _
  have hs : (npSort vals).Pairwise (· ≤ ·) := List.pairwise_insertionSort _ _
  refine ⟨hperm.mem_iff.mp (List.mem_of_getElem? hv), ?_, ?_⟩
  · rw [← hperm.countP_eq]
    obtain ⟨hk, hkv⟩ := List.getElem?_eq_some_iff.mp hv
    rw [← List.take_append_drop k (npSort vals), List.countP_append]
    have h1 : ((npSort vals).drop k).countP (fun x => decide (x < v)) = 0 := by
      rw [List.countP_eq_zero]
      intro x hx
      obtain ⟨a, ha⟩ := List.mem_iff_getElem?.mp hx
      rw [List.getElem?_drop] at ha
      obtain ⟨g1, g2⟩ := List.getElem?_eq_some_iff.mp ha
      simp only [decide_eq_true_eq, not_lt]
      rcases Nat.eq_zero_or_pos a with rfl | hpos
      · simp only [Nat.add_zero] at g2
        rw [← hkv, ← g2]
      · have := List.pairwise_iff_getElem.mp hs k (k + a) hk g1 (by omega)
        rwa [hkv, g2] at this
    rw [h1, Nat.add_zero]
    exact le_trans List.countP_le_length (List.length_take_le _ _)
  · rw [← hperm.countP_eq]
    obtain ⟨hk, hkv⟩ := List.getElem?_eq_some_iff.mp hv
    rw [← List.take_append_drop (k + 1) (npSort vals), List.countP_append]
    have h1 : ((npSort vals).take (k + 1)).countP (fun x => decide (x ≤ v)) = k + 1 := by
      have : ((npSort vals).take (k + 1)).length = k + 1 := by simp; omega
      conv_rhs => rw [← this]
      rw [List.countP_eq_length]
      intro x hx
      obtain ⟨a, ha⟩ := List.mem_iff_getElem?.mp hx
      rw [List.getElem?_take] at ha
      split at ha
      · obtain ⟨g1, g2⟩ := List.getElem?_eq_some_iff.mp ha
        simp only [decide_eq_true_eq]
        rcases Nat.eq_or_lt_of_le (show a ≤ k by omega) with rfl | h
        · rw [← hkv, ← g2]
        · have := List.pairwise_iff_getElem.mp hs a k g1 hk h
          rwa [hkv, g2] at this
      · cases ha
    omega

/-- The accepted track indices, sorted. -/
theorem trackIndices_ok (track : List Int) (hne : track ≠ []) (hpos : ∀ k ∈ track, 0 ≤ k) :
    ∃ l, trackIndices track = .ok l ∧ l.Perm track ∧ l.Pairwise (· ≤ ·) := by
  refine ⟨_, ?_, List.perm_insertionSort (· ≤ ·) track, List.pairwise_insertionSort (· ≤ ·) track⟩
  unfold trackIndices
  rw [if_neg (by simpa using hne), if_neg (by simpa using hpos)]

theorem RP0.takeClip_ok (sorted : List (Fl K)) (k : Nat) :
    RP0.takeClip (sorted ++ [.nan]) k = .ok ((sorted[k]?).getD .nan) := by
  unfold RP0.takeClip
  rcases Nat.lt_or_ge k sorted.length with h | h
  · rw [show max 0 (min (k : Int) (((sorted ++ [(Fl.nan : Fl K)]).length : Int) - 1)) = (k : Int) by simp; omega, pyGet_nat_ok]
    simp [List.getElem?_append_left h, h]
  · rw [show max 0 (min (k : Int) (((sorted ++ [(Fl.nan : Fl K)]).length : Int) - 1)) = ((sorted.length : Nat) : Int) by simp; omega, pyGet_nat_ok]
    simp [h]

/-- **C48.** `RadiusProfile0` for any track indices, fed with any columns in any state: entry `i` of the column is the `k`-th smallest delivered value,
where `k` is the `i`-th track index in sorted order, and NaN if there are at most `k` values. Other columns are untouched. -/
theorem C48_kth_smallest (track : List Int) (hne : track ≠ []) (hpos : ∀ k ∈ track, 0 ≤ k) (w : Nat) :
    ∃ (l : List Int) (p0 : RP0 K), l.Perm track ∧ l.Pairwise (· ≤ ·) ∧ RP0.initialise track w = .ok p0 ∧ p0.track = l ∧ p0.w = w ∧
      (∀ t c, p0.values t c = .nan) ∧
      ∀ p : RP0 K, p.track = l → p.w = w → ∀ (c : Nat) (vals : List (Fl K)), c < w →
        ∃ p', p.processColumn c [vals] = .ok p' ∧ p'.track = l ∧ p'.w = w ∧ (∀ t j, j ≠ c → p'.values t j = p.values t j) ∧
          ∀ (i k : Nat), l[i]? = some (k : Int) →
            (k < vals.length → Spec.IsKth vals k (p'.values i c)) ∧ (vals.length ≤ k → p'.values i c = .nan) := by
  obtain ⟨l, h1, h2, h3⟩ := trackIndices_ok track hne hpos
  refine ⟨l, ⟨l, w, fun _ _ => .nan⟩, h2, h3, ?_, rfl, rfl, fun _ _ => rfl, ?_⟩
  · simp only [RP0.initialise, h1, bind, Except.bind]
    rw [if_neg (by omega)]
    rfl
  · intro p hp hpw c vals hc
    have htake : p.track.mapM (RP0.takeClip (npSort vals ++ [.nan])) = .ok (l.map fun k => ((npSort vals)[k.toNat]?).getD .nan) := by
      rw [hp, mapM_ok_iff]
      rw [List.forall₂_map_right_iff, List.forall₂_same]
      intro k hk
      have := hpos k (h2.mem_iff.mp hk)
      obtain ⟨n, rfl⟩ := Int.eq_ofNat_of_zero_le this
      exact RP0.takeClip_ok _ _
    refine ⟨⟨p.track, p.w, fun t j => if j = c then ((l.map fun k => ((npSort vals)[k.toNat]?).getD .nan)[t]?).getD (p.values t j) else p.values t j⟩, ?_,
      hp, hpw, fun t j hj => by simp [hj], ?_⟩
    · simp only [RP0.processColumn, show pyGet [vals] 0 = .ok vals from rfl, bind, Except.bind, htake, wrapIdx_nat _ _ (hpw ▸ hc)]
      rfl
    · intro i k hk
      have hlen : (npSort vals).length = vals.length := List.length_insertionSort _ _
      simp only [if_true, List.getElem?_map, hk, Option.map_some, Option.getD_some, Int.toNat_natCast]
      constructor
      · intro hlt
        apply npSort_kth
        have : k < (npSort vals).length := by omega
        simp [this]
      · intro hge
        rw [List.getElem?_eq_none (by omega)]
        rfl

example := C48_kth_smallest (K := ℚ) [7, 0, 2, 2] (by simp) (by simp) 2

/-- Invalid track indices are rejected, diagonals are not supported. -/
theorem C48_invalid (track : List Int) (h : track = [] ∨ ∃ k ∈ track, k < 0) (w : Int) (p : RP0 K) (d : Int) (values : List (List (Fl K))) :
    RP0.initialise (K := K) track w = .error .valueError ∧ p.processDiagonal d values = .error .notImplemented := by
  refine ⟨?_, rfl⟩
  have : trackIndices track = .error .valueError := by
    unfold trackIndices
    rcases h with rfl | ⟨k, hk, hlt⟩
    · rfl
    · split
      · rfl
      · rw [if_pos (by simpa using ⟨k, hk, hlt⟩)]
  simp only [RP0.initialise, this, bind, Except.bind]

example := C48_invalid (K := ℚ) [3, -1] (.inr ⟨-1, by simp, by omega⟩) 2

/-- C48 on a column with ties, infinities and NaN; track indices unsorted and repeated. -/
example : (((RP0.initialise [7, 0, 2, 2] 2 : Except PyErr (RP0 ℚ)).bind fun p => p.processColumn 1 [[.fin 3, .nan, .fin 1, .pinf, .fin 1]]).map fun p =>
    (List.range 4).map fun t => p.values t 1) = .ok [.fin 1, .fin 3, .fin 3, .nan] := by decide +kernel

/-! ### C49 -/

theorem RP.loop_spec (p : RP K) (c : Nat) (hc : c < p.w) (vals : List (Fl K)) (hst : p.track.Pairwise (· < ·)) :
    ∀ (rest : List Nat) (i k : Nat) (values : Mat (Fl K)), k < p.track.length → (∀ x ∈ rest, x < vals.length) →
      (∀ (a : Nat) (τ : Int), k ≤ a → p.track[a]? = some τ → (i : Int) ≤ τ) →
      ∃ values', p.loop c vals rest i k values = .ok values' ∧ (∀ t j, (j ≠ c ∨ t < k) → values' t j = values t j) ∧
        ∀ (t τ : Nat), k ≤ t → p.track[t]? = some (τ : Int) →
          values' t c = match rest[τ - i]? with | some low => at? vals low | none => values t c := by
  intro rest
  induction rest with
  | nil =>
    intro i k values _ _ _
    exact ⟨values, rfl, fun _ _ _ => rfl, fun t τ _ _ => by simp⟩
  | cons low rest ih =>
    intro i k values hk hlt hτ
    obtain ⟨tk, htk⟩ : ∃ tk, p.track[k]? = some tk := ⟨p.track[k], by simp [hk]⟩
    have hlow : pyGet vals (low : Int) = .ok (at? vals low) := by
      have := hlt low (by simp)
      rw [pyGet_nat_ok]; simp [at?, this]
    have hbig : ∀ (a : Nat) (τ : Int), k + 1 ≤ a → p.track[a]? = some τ → tk < τ := by
      intro a τ ha hat
      obtain ⟨g1, g2⟩ := List.getElem?_eq_some_iff.mp htk
      obtain ⟨g3, g4⟩ := List.getElem?_eq_some_iff.mp hat
      have := List.pairwise_iff_getElem.mp hst k a g1 g3 (by omega)
      rwa [g2, g4] at this
    have hik := hτ k tk le_rfl htk
    rw [RP.loop, (pyGet_nat_ok _ _ _).mpr htk]
    simp only [bind, Except.bind]
    by_cases he : (i : Int) = tk
    · simp only [he, if_true, hlow, wrapIdx_nat _ _ hc]
      have hset : ∀ (t τ : Nat), t = k → p.track[t]? = some (τ : Int) → τ - i = 0 := by
        intro t τ ht hat
        rw [ht, htk] at hat
        cases hat
        omega
      split
      · rename_i hend
        refine ⟨_, rfl, ?_, ?_⟩
        · intro t j h
          have : ¬ (t = k ∧ j = c) := by omega
          simp [this]
        · intro t τ ht hat
          have htl := (List.getElem?_eq_some_iff.mp hat).1
          have : t = k := by omega
          rw [hset t τ this hat]
          simp [this]
      · rename_i hend
        obtain ⟨values', g1, g2, g3⟩ := ih (i + 1) (k + 1) (fun a b => if a = k ∧ b = c then at? vals low else values a b) (by omega)
          (fun x hx => hlt x (by simp [hx])) (fun a τ ha hat => by have := hbig a τ ha hat; omega)
        refine ⟨values', g1, ?_, ?_⟩
        · intro t j h
          have : ¬ (t = k ∧ j = c) := by omega
          rw [g2 t j (by omega)]
          simp [this]
        · intro t τ ht hat
          rcases Nat.eq_or_lt_of_le ht with h | h
          · rw [g2 t c (by omega), hset t τ h.symm hat]
            simp [h]
          · have h5 := hbig t τ h hat
            have h6 := g3 t τ h hat
            rw [h6]
            have : τ - i = (τ - (i + 1)) + 1 := by omega
            rw [this, List.getElem?_cons_succ]
            have h7 : ¬ t = k := by omega
            simp only [h7, false_and, if_false]
    · simp only [he, if_false]
      have hgt : ∀ (a : Nat) (τ : Int), k ≤ a → p.track[a]? = some τ → ((i + 1 : Nat) : Int) ≤ τ := by
        intro a τ ha hat
        rcases Nat.eq_or_lt_of_le ha with h | h
        · rw [← h, htk] at hat
          cases hat
          omega
        · have := hbig a τ h hat
          omega
      obtain ⟨values', g1, g2, g3⟩ := ih (i + 1) k values hk (fun x hx => hlt x (by simp [hx])) hgt
      refine ⟨values', g1, g2, fun t τ ht hat => ?_⟩
      rw [g3 t τ ht hat]
      have := hgt t τ ht hat
      have e : τ - i = (τ - (i + 1)) + 1 := by omega
      rw [e, List.getElem?_cons_succ]

/-- **C49 (part).** `RadiusProfile` with pairwise different track indices: entry `i` of the column is the value of the `k`-th index produced by
`lowest_value_idxs`, where `k` is the `i`-th track index in sorted order; if fewer indices are produced the entry keeps its content (NaN for a column
not processed before). Other columns are untouched. False for repeated track indices, see `C49_repeated_track_index`. -/
theorem C49_kth_match_partial (track : List Int) (hne : track ≠ []) (hpos : ∀ k ∈ track, 0 ≤ k) (hnd : track.Nodup) (e w : Nat) :
    ∃ (l : List Int) (p0 : RP K), l.Perm track ∧ l.Pairwise (· ≤ ·) ∧ RP.initialise track (some (e : Int)) w = .ok p0 ∧ p0.track = l ∧ p0.exclusion = e ∧
      p0.w = w ∧ (∀ t c, p0.values t c = .nan) ∧
      ∀ p : RP K, p.track = l → p.exclusion = e → p.w = w → ∀ (c : Nat) (vals : List (Fl K)) (fuel : Nat), c < w → vals ≠ [] → vals.length ≤ fuel →
        ∃ (is : List Nat) (p' : RP K), lowestValueIdxs fuel vals (some (e : Int)) = .ok (some is) ∧ p.processColumn fuel c [vals] = .ok (some p') ∧
          p'.track = l ∧ p'.exclusion = e ∧ p'.w = w ∧ (∀ t j, j ≠ c → p'.values t j = p.values t j) ∧
          ∀ (i k : Nat), l[i]? = some (k : Int) →
            (∀ low, is[k]? = some low → vals[low]? = some (p'.values i c)) ∧ (is.length ≤ k → p'.values i c = p.values i c) := by
  obtain ⟨l, h1, h2, h3⟩ := trackIndices_ok track hne hpos
  refine ⟨l, ⟨l, e, w, fun _ _ => .nan⟩, h2, h3, ?_, rfl, rfl, rfl, fun _ _ => rfl, ?_⟩
  · simp only [RP.initialise, h1, bind, Except.bind]
    rw [if_neg (by omega), if_neg (by omega)]
    rfl
  · intro p hp hpe hpw c vals fuel hc hvals hfuel
    obtain ⟨is, g1, g2, -⟩ := lowestValueIdxs_spec vals hvals e fuel hfuel
    have hlt : ∀ x ∈ is, x < vals.length := by
      intro x hx
      obtain ⟨y, hy⟩ := g2 x hx
      exact (List.getElem?_eq_some_iff.mp hy).1
    have hst : l.Pairwise (· < ·) := by
      have hnd' : l.Nodup := h2.nodup_iff.mpr hnd
      exact (h3.and hnd').imp fun {a b} h => lt_of_le_of_ne h.1 h.2
    have hl : 0 < l.length := by rw [h2.length_eq]; exact List.length_pos_iff.mpr hne
    obtain ⟨values', k1, k2, k3⟩ := RP.loop_spec p c (hpw ▸ hc) vals (hp ▸ hst) is 0 0 p.values
      (hp ▸ hl) hlt (by
        intro a τ _ hat
        rw [hp] at hat
        exact_mod_cast hpos τ (h2.mem_iff.mp (List.mem_of_getElem? hat)))
    refine ⟨is, ⟨p.track, p.exclusion, p.w, values'⟩, g1, ?_, hp, hpe, hpw, fun t j hj => k2 t j (.inl hj), ?_⟩
    · simp only [RP.processColumn, show pyGet [vals] 0 = .ok vals from rfl, bind, Except.bind, hpe, g1, k1]
      rfl
    · intro i k hk
      have h5 := k3 i k (by omega) (by rw [hp]; exact hk)
      rw [Nat.sub_zero] at h5
      constructor
      · intro low hlow
        rw [hlow] at h5
        have := hlt low (List.mem_of_getElem? hlow)
        show vals[low]? = some (values' i c)
        rw [h5]
        simp [at?, this]
      · intro hge
        rw [List.getElem?_eq_none hge] at h5
        exact h5

example := C49_kth_match_partial (K := ℚ) [4, 1, 0] (by simp) (by simp) (by decide) 1 2

/-- **C49 fails for repeated track indices**: with `track_indices = [0, 0]` the second entry stays NaN although there is a match. -/
theorem C49_repeated_track_index : ∃ p : RP ℚ, RP.initialise [0, 0] (some 0) 1 = .ok p ∧
    lowestValueIdxs 3 ([.fin 4, .fin 2, .fin 9] : List (Fl ℚ)) (some 0) = .ok (some [1, 0, 2]) ∧
    ((p.processColumn 3 0 [[.fin 4, .fin 2, .fin 9]]).map fun p => p.map fun p => (List.range 2).map fun t => p.values t 0) = .ok (some [.fin 2, .nan]) :=
  ⟨_, rfl, by decide +kernel, by decide +kernel⟩

/-- Invalid arguments are rejected; an empty column raises `ValueError`; diagonals are not supported. -/
theorem C49_invalid (track : List Int) (p : RP K) (hp : 0 ≤ p.exclusion) (fuel : Nat) (c d w : Int) (values : List (List (Fl K))) :
    ((track = [] ∨ ∃ k ∈ track, k < 0) → ∀ e, RP.initialise (K := K) track e w = .error .valueError) ∧
    (track ≠ [] → (∀ k ∈ track, 0 ≤ k) → RP.initialise (K := K) track none w = .error .runtimeError ∧
      ∀ e < 0, RP.initialise (K := K) track (some e) w = .error .runtimeError) ∧
    p.processColumn fuel c [[]] = .error .valueError ∧ p.processDiagonal d values = .error .notImplemented := by
  refine ⟨?_, ?_, ?_, rfl⟩
  · intro h e
    have : trackIndices track = .error .valueError := by
      unfold trackIndices
      rcases h with rfl | ⟨k, hk, hlt⟩
      · rfl
      · split
        · rfl
        · rw [if_pos (by simpa using ⟨k, hk, hlt⟩)]
    simp only [RP.initialise, this, bind, Except.bind]
  · intro h1 h2
    obtain ⟨l, h3, -⟩ := trackIndices_ok track h1 h2
    refine ⟨by simp only [RP.initialise, h3, bind, Except.bind], fun e he => ?_⟩
    simp only [RP.initialise, h3, bind, Except.bind]
    rw [if_pos he]
  · simp only [RP.processColumn, show pyGet [([] : List (Fl K))] 0 = .ok [] from rfl, bind, Except.bind, (C12_invalid_raises fuel [] p.exclusion).2.2 hp]

/-- C49 on a column with ties, NaN and an infinity, exclusion 1, unsorted track indices. -/
example : (((RP.initialise [4, 1, 0] (some 1) 1 : Except PyErr (RP ℚ)).bind fun p => p.processColumn 6 0 [[.fin 3, .nan, .fin 1, .fin 1, .ninf, .fin 2]]).map fun p =>
    p.map fun p => (List.range 3).map fun t => p.values t 0) = .ok (some [.fin 1, .fin 2, .nan]) := by decide +kernel

/-- `C49_invalid`, for an object with exclusion zone 1. -/
example (p : RP ℚ) (h : RP.initialise [4, 1, 0] (some 1) 1 = .ok p) :=
  C49_invalid [3, -1] p (by
    have h' : (RP.initialise [4, 1, 0] (some 1) 1 : Except PyErr (RP ℚ)).map (·.exclusion) = .ok 1 := by decide +kernel
    rw [h] at h'
    exact (Except.ok.inj h').ge.trans' (by norm_num)) 6 0 2 5 [[.fin 1]]

end Verif
