import Verif.Props.NoExclusion

/-!
# C115: every threshold and every tracked match for itself
-/

namespace Verif
open Spec
variable {G K : Type} [LinearOrder K]

namespace Separate

/-! ### `ThresholdCounter` -/

/-- In step. -/
structure Counts (w : Nat) (p q : TC K) : Prop where
  pw : p.w = w
  qw : q.w = w
  same : ∀ (t t' : Nat) (θ : Fl K), p.thresholds[t]? = some θ → q.thresholds[t']? = some θ → ∀ c, p.counts t c = q.counts t' c

theorem counts_column {w : Nat} {p q : TC K} (h : Counts w p q) (x : Int) (values : List (List (Fl K))) : Alike (Counts w) (p.processColumn x values) (q.processColumn x values) := by
  unfold TC.processColumn
  rw [h.pw, h.qw]
  refine (Alike.refl _).bind fun v _ hv => ?_
  subst hv
  refine (Alike.refl _).bind fun c _ hc => ?_
  subst hc
  refine .ok ⟨rfl, rfl, fun t t' θ ht ht' j => ?_⟩
  dsimp only at ht ht' ⊢
  rw [ht, ht', h.same t t' θ ht ht' j]

theorem counts_diagonal {w : Nat} {p q : TC K} (h : Counts w p q) (d : Int) (values : List (List (Fl K))) :
    Alike (Counts w) (p.processDiagonal d values) (q.processDiagonal d values) := by
  unfold TC.processDiagonal
  rw [h.pw, h.qw]
  refine (Alike.refl _).bind fun v _ hv => ?_
  subst hv
  dsimp only
  split
  · refine .ok ⟨rfl, rfl, fun t t' θ ht ht' j => ?_⟩
    dsimp only at ht ht' ⊢
    rw [ht, ht', h.same t t' θ ht ht' j]
  · exact .err _

theorem counts_inStep (gops : GenOps G K) (h : Int) (w : Nat) : InStep h w True True True (fun ids ids' c c' => ids' = ids ∧ Counts w c c') (TC.ops gops) (TC.ops gops) :=
  InStep.of_same (P := fun _ => Counts w) rfl (fun _ _ _ _ hp x vals _ _ _ => counts_column hp x vals) (fun _ _ _ _ hp d vals _ _ _ => counts_diagonal hp d vals)
    (fun _ _ _ _ _ _ _ => .err _) (fun _ _ _ _ _ _ _ => .err _)

theorem counts_init (c : (List (Fl K) × List (Fl K)) × List Nat) (gops : GenOps G K) (d : Nat) (h : Int) (w : Nat) :
    Alike (fun p q => c.2 = c.2 ∧ Counts w p q) ((TC.ops gops).initialise (TC.new c.1.1) d h w) ((TC.ops gops).initialise (TC.new c.1.2) d h w) := by
  show Alike _ (TC.initialise c.1.1 w) (TC.initialise c.1.2 w)
  simp only [TC.initialise, Int.toNat_natCast]
  rw [if_neg (by omega), if_neg (by omega)]
  exact .ok ⟨trivial, rfl, rfl, fun _ _ _ _ _ _ => rfl⟩

/-! ### `DistancedThresholdCounter` -/

/-- How many indices are counted for the threshold `θ`. -/
def chosen (θ : Fl K) (e : Int) (vals : List (Fl K)) : List Nat → List Bool → Nat
  | [], _ => 0
  | i :: order, excl =>
    if Fl.ltF θ (at? vals i) then 0
    else if (excl[i]?).getD false then chosen θ e vals order excl
    else 1 + chosen θ e vals order (pyFill excl (max 0 ((i : Int) - e)) ((i : Int) + e + 1) true)

theorem ltF_mono {a b v : Fl K} (h : a ≤ b) (hb : Fl.ltF b v = true) : Fl.ltF a v = true := by
  rw [Fl.ltF_iff] at hb ⊢
  exact ⟨h.trans_lt hb.1, hb.2⟩

theorem loop_chosen (p : DTC K) (c : Nat) (hc : c < p.w) (vals : List (Fl K)) (hthr : p.thresholds.Pairwise (· ≤ ·)) :
    ∀ (order : List Nat) (k : Nat) (excl : List Bool) (counts : Mat Nat), (∀ i ∈ order, i < vals.length) → excl.length = vals.length →
      ∃ counts', p.loop c vals order k excl counts = .ok counts' ∧ (∀ t j, j ≠ c → counts' t j = counts t j) ∧
        ∀ (t : Nat) (θ : Fl K), p.thresholds[t]? = some θ → counts' t c = counts t c + if k ≤ t then chosen θ p.exclusion vals order excl else 0 := by
  intro order
  induction order with
  | nil => exact fun k excl counts _ _ => ⟨counts, rfl, fun _ _ _ => rfl, fun t θ _ => by simp [chosen]⟩
  | cons i order ih =>
    intro k excl counts hord hlen
    have hi := hord i List.mem_cons_self
    have hord' : ∀ j ∈ order, j < vals.length := fun j hj => hord j (List.mem_cons_of_mem _ hj)
    have g1 : pyGet vals (i : Int) = .ok (at? vals i) := (pyGet_nat_ok _ _ _).mpr (NoExclusion.at_spec hi)
    have g2 : pyGet excl (i : Int) = .ok ((excl[i]?).getD false) := by
      rw [pyGet_nat_ok, List.getElem?_eq_getElem (by omega)]; rfl
    simp only [DTC.loop, g1, bind, Except.bind]
    rcases DTC.advance_spec (at? vals i) (p.thresholds.drop k) k with ⟨e1, e2⟩ | ⟨m, hm, e1, e2, θ', e3, e4⟩
    · rw [e1]
      refine ⟨counts, rfl, fun _ _ _ => rfl, fun t θ ht => ?_⟩
      by_cases hk : k ≤ t
      · have : Fl.ltF θ (at? vals i) = true := e2 θ (List.mem_of_getElem? (i := t - k) (by rw [List.getElem?_drop, show k + (t - k) = t by omega]; exact ht))
        simp [chosen, this]
      · simp [hk]
    · rw [e1]
      dsimp only
      rw [g2]
      dsimp only
      rw [List.getElem?_drop] at e3
      have key : ∀ (t : Nat) (θ : Fl K), p.thresholds[t]? = some θ → k ≤ t → (k + m ≤ t ↔ Fl.ltF θ (at? vals i) = false) := by
        intro t θ ht hk
        constructor
        · intro hle
          rw [← Bool.not_eq_true]
          intro hlt
          rw [← Bool.not_eq_true] at e4
          refine e4 (ltF_mono ?_ hlt)
          obtain ⟨a1, a2⟩ := List.getElem?_eq_some_iff.mp e3
          obtain ⟨b1, b2⟩ := List.getElem?_eq_some_iff.mp ht
          rcases Nat.eq_or_lt_of_le hle with h | h
          · rw [← a2, ← b2]; simp [h]
          · have := List.pairwise_iff_getElem.mp hthr _ _ a1 b1 h
            rwa [a2, b2] at this
        · intro hf
          by_contra hle
          have := e2 (t - k) θ (by omega) (by rw [List.getElem?_drop, show k + (t - k) = t by omega]; exact ht)
          rw [hf] at this
          cases this
      cases hx : (excl[i]?).getD false with
      | true =>
        obtain ⟨counts', f1, f2, f3⟩ := ih (k + m) excl counts hord' hlen
        rw [if_pos rfl]
        refine ⟨counts', f1, f2, fun t θ ht => ?_⟩
        rw [f3 t θ ht]
        by_cases hk : k ≤ t
        · by_cases hm' : k + m ≤ t
          · simp [hk, hm', chosen, (key t θ ht hk).mp hm', hx]
          · have : Fl.ltF θ (at? vals i) = true := by
              rw [← Bool.not_eq_false]; exact fun h => hm' ((key t θ ht hk).mpr h)
            simp [hm', chosen, this]
        · simp [hk, show ¬ k + m ≤ t by omega]
      | false =>
        rw [if_neg (by simp), wrapIdx_nat _ _ hc]
        dsimp only
        obtain ⟨counts', f1, f2, f3⟩ := ih (k + m) (pyFill excl (max 0 ((i : Int) - p.exclusion)) ((i : Int) + p.exclusion + 1) true)
          (fun t j => if k + m ≤ t ∧ j = c then counts t j + 1 else counts t j) hord' (by rw [pyFill_length]; exact hlen)
        refine ⟨counts', f1, fun t j hj => by rw [f2 t j hj]; simp [hj], fun t θ ht => ?_⟩
        rw [f3 t θ ht]
        by_cases hk : k ≤ t
        · by_cases hm' : k + m ≤ t
          · simp [hk, hm', chosen, (key t θ ht hk).mp hm', hx, Nat.add_assoc]
          · have : Fl.ltF θ (at? vals i) = true := by
              rw [← Bool.not_eq_false]; exact fun h => hm' ((key t θ ht hk).mpr h)
            simp [hm', chosen, this]
        · simp [hk, show ¬ k + m ≤ t by omega]

/-- In step. -/
structure Chosen (w : Nat) (p q : DTC K) : Prop where
  ne : p.thresholds ≠ []
  ne' : q.thresholds ≠ []
  sorted : p.thresholds.Pairwise (· ≤ ·)
  sorted' : q.thresholds.Pairwise (· ≤ ·)
  excl : q.exclusion = p.exclusion
  pw : p.w = w
  qw : q.w = w
  same : ∀ (t t' : Nat) (θ : Fl K), p.thresholds[t]? = some θ → q.thresholds[t']? = some θ → ∀ c, p.counts t c = q.counts t' c

theorem chosen_column {w : Nat} {p q : DTC K} (h : Chosen w p q) (x : Int) (h0 : 0 ≤ x) (h1 : x < w) (argsort : List (Fl K) → List Nat) (ho : ∀ l, ∀ i ∈ argsort l, i < l.length)
    (values : List (List (Fl K))) :
    Alike (Chosen w) (do p.processColumn (argsort (← pyGet values 0)) x values) (do q.processColumn (argsort (← pyGet values 0)) x values) := by
  obtain ⟨c, rfl⟩ := Int.eq_ofNat_of_zero_le h0
  cases values with
  | nil => exact .err _
  | cons v l =>
    have gv : pyGet (v :: l) 0 = .ok v := rfl
    have gt : ∀ r : DTC K, r.thresholds ≠ [] → ∃ θ, pyGet r.thresholds 0 = .ok θ := fun r hr => by
      obtain ⟨a, b, e⟩ := List.exists_cons_of_ne_nil hr
      exact ⟨a, by rw [e]; rfl⟩
    obtain ⟨θ, hθ⟩ := gt p h.ne
    obtain ⟨θ', hθ'⟩ := gt q h.ne'
    obtain ⟨n, a1, a2, a3⟩ := loop_chosen p c (by rw [h.pw]; omega) v h.sorted (argsort v) 0 (List.replicate v.length false) p.counts (ho v) (by simp)
    obtain ⟨n', b1, b2, b3⟩ := loop_chosen q c (by rw [h.qw]; omega) v h.sorted' (argsort v) 0 (List.replicate v.length false) q.counts (ho v) (by simp)
    simp only [DTC.processColumn, gv, hθ, hθ', a1, b1, bind, Except.bind, pure, Except.pure]
    refine .ok ⟨h.ne, h.ne', h.sorted, h.sorted', h.excl, h.pw, h.qw, fun t t' τ ht ht' j => ?_⟩
    dsimp only at ht ht' ⊢
    by_cases hj : j = c
    · subst hj
      rw [a3 t τ ht, b3 t' τ ht', h.same t t' τ ht ht' j, h.excl]
      simp
    · rw [a2 t j hj, b2 t' j hj, h.same t t' τ ht ht' j]

theorem chosen_inStep (argsort : List (Fl K) → List Nat) (ho : ∀ l, ∀ i ∈ argsort l, i < l.length) (gops : GenOps G K) (h : Int) (w : Nat) :
    InStep h w True True True (fun ids ids' c c' => ids' = ids ∧ Chosen w c c') (DTC.ops argsort gops) (DTC.ops argsort gops) :=
  InStep.of_same (P := fun _ => Chosen w) rfl (fun _ _ _ _ hp x vals h0 h1 _ => chosen_column hp x h0 h1 argsort ho vals) (fun _ _ _ _ _ _ _ _ _ _ => .err _)
    (fun _ _ _ _ _ _ _ => .err _) (fun _ _ _ _ _ _ _ => .err _)

theorem npSort_sorted (l : List (Fl K)) : (npSort l).Pairwise (· ≤ ·) := List.pairwise_insertionSort _ _

theorem npSort_ne {l : List (Fl K)} (h : l ≠ []) : npSort l ≠ [] := fun e => h (List.length_eq_zero_iff.mp (by
  rw [← List.length_insertionSort (· ≤ ·) l]; exact congrArg List.length e))

theorem chosen_init (c : ((List (Fl K) × List (Fl K)) × Int) × List Nat) (h1 : c.1.1.1 ≠ []) (h2 : c.1.1.2 ≠ []) (argsort : List (Fl K) → List Nat) (gops : GenOps G K) (d : Nat) (h : Int)
    (w : Nat) : Alike (fun p q => c.2 = c.2 ∧ Chosen w p q) ((DTC.ops argsort gops).initialise (DTC.new c.1.1.1 c.1.2) d h w)
      ((DTC.ops argsort gops).initialise (DTC.new c.1.1.2 c.1.2) d h w) := by
  show Alike _ (DTC.initialise c.1.1.1 c.1.2 w) (DTC.initialise c.1.1.2 c.1.2 w)
  simp only [DTC.initialise, Int.toNat_natCast]
  rw [if_neg (by omega), if_neg (by omega)]
  exact .ok ⟨trivial, npSort_ne h1, npSort_ne h2, npSort_sorted _, npSort_sorted _, rfl, rfl, rfl, fun _ _ _ _ _ _ => rfl⟩

/-! ### `RadiusProfile0` -/

/-- In step. -/
structure Ranks (w : Nat) (p q : RP0 K) : Prop where
  ne : p.track ≠ []
  ne' : q.track ≠ []
  pos : ∀ k ∈ p.track, 0 ≤ k
  pos' : ∀ k ∈ q.track, 0 ≤ k
  sorted : p.track.Pairwise (· ≤ ·)
  sorted' : q.track.Pairwise (· ≤ ·)
  pw : p.w = w
  qw : q.w = w
  same : ∀ (i i' : Nat) (k : Int), p.track[i]? = some k → q.track[i']? = some k → ∀ c, p.values i c = q.values i' c

theorem ranks_column {w : Nat} {p q : RP0 K} (h : Ranks w p q) (x : Int) (h0 : 0 ≤ x) (h1 : x < w) (values : List (List (Fl K))) :
    Alike (Ranks w) (p.processColumn x values) (q.processColumn x values) := by
  obtain ⟨c, rfl⟩ := Int.eq_ofNat_of_zero_le h0
  have e : ∀ (r : RP0 K) v l, r.processColumn c (v :: l) = r.processColumn c [v] := fun _ _ _ => rfl
  cases values with
  | nil => exact .err _
  | cons v l =>
    rw [e p, e q]
    obtain ⟨p', a1, a2, a3, a4, a5⟩ := NoExclusion.rp0_column p h.ne h.pos h.sorted (c := c) (by rw [h.pw]; omega) v
    obtain ⟨q', b1, b2, b3, b4, b5⟩ := NoExclusion.rp0_column q h.ne' h.pos' h.sorted' (c := c) (by rw [h.qw]; omega) v
    rw [a1, b1]
    refine .ok ⟨a2 ▸ h.ne, b2 ▸ h.ne', a2 ▸ h.pos, b2 ▸ h.pos', a2 ▸ h.sorted, b2 ▸ h.sorted', a3.trans h.pw, b3.trans h.qw, fun i i' k hi hi' j => ?_⟩
    rw [a2] at hi
    rw [b2] at hi'
    by_cases hj : j = c
    · subst hj
      obtain ⟨k, rfl⟩ := Int.eq_ofNat_of_zero_le (h.pos k (List.mem_of_getElem? hi))
      rw [a5 i k hi, b5 i' k hi']
    · rw [a4 i j hj, b4 i' j hj, h.same i i' k hi hi' j]

theorem ranks_inStep (gops : GenOps G K) (h : Int) (w : Nat) : InStep h w True True True (fun ids ids' c c' => ids' = ids ∧ Ranks w c c') (RP0.ops gops) (RP0.ops gops) :=
  InStep.of_same (P := fun _ => Ranks w) rfl (fun _ _ _ _ hp x vals h0 h1 _ => ranks_column hp x h0 h1 vals) (fun _ _ _ _ _ _ _ _ _ _ => .err _)
    (fun _ _ _ _ _ _ _ => .err _) (fun _ _ _ _ _ _ _ => .err _)

theorem ranks_init (c : (List Int × List Int) × List Nat) (h1 : c.1.1 ≠ [] ∧ ∀ k ∈ c.1.1, 0 ≤ k) (h2 : c.1.2 ≠ [] ∧ ∀ k ∈ c.1.2, 0 ≤ k) (gops : GenOps G K) (d : Nat) (h : Int) (w : Nat) :
    Alike (fun p q => c.2 = c.2 ∧ Ranks w p q) ((RP0.ops gops).initialise (RP0.new c.1.1) d h w) ((RP0.ops gops).initialise (RP0.new c.1.2) d h w) := by
  obtain ⟨l, a1, a2, a3⟩ := trackIndices_ok c.1.1 h1.1 h1.2
  obtain ⟨l', b1, b2, b3⟩ := trackIndices_ok c.1.2 h2.1 h2.2
  show Alike _ (RP0.initialise c.1.1 w) (RP0.initialise c.1.2 w)
  simp only [RP0.initialise, a1, b1, bind, Except.bind, pure, Except.pure, Int.toNat_natCast]
  rw [if_neg (by omega), if_neg (by omega)]
  exact .ok ⟨trivial, fun e => h1.1 (by simp only at e; subst e; exact a2.nil_eq.symm), fun e => h2.1 (by simp only at e; subst e; exact b2.nil_eq.symm),
    fun k hk => h1.2 k (a2.mem_iff.mp hk), fun k hk => h2.2 k (b2.mem_iff.mp hk), a3, b3, rfl, rfl, fun _ _ _ _ _ _ => rfl⟩

/-! ### `RadiusProfile` -/

theorem lowestLoop_lt (e : Int) : ∀ (fuel : Nat) (arr : List (Fl K)) (is : List Nat), lowestLoop e fuel arr = .ok (some is) → ∀ i ∈ is, i < arr.length := by
  intro fuel
  induction fuel with
  | zero =>
    intro arr is h
    unfold lowestLoop at h
    obtain ⟨m, -, h⟩ := bind_ok_iff.mp h
    obtain ⟨v, -, h⟩ := bind_ok_iff.mp h
    split at h
    · cases h; simp
    · cases h
  | succ fuel ih =>
    intro arr is h
    unfold lowestLoop at h
    obtain ⟨m, -, h⟩ := bind_ok_iff.mp h
    obtain ⟨v, hv, h⟩ := bind_ok_iff.mp h
    split at h
    · cases h; simp
    · obtain ⟨rest, hr, h⟩ := bind_ok_iff.mp h
      cases rest with
      | none => cases h
      | some rest =>
        cases h
        have := ih _ _ hr
        rw [pyFill_length] at this
        intro i hi
        rcases List.mem_cons.mp hi with rfl | hi
        · rw [pyGet_nat_ok] at hv
          exact (List.getElem?_eq_some_iff.mp hv).1
        · exact this i hi

/-- In step. -/
structure Matches (w : Nat) (p q : RP K) : Prop where
  ne : p.track ≠ []
  ne' : q.track ≠ []
  pos : ∀ k ∈ p.track, 0 ≤ k
  pos' : ∀ k ∈ q.track, 0 ≤ k
  sorted : p.track.Pairwise (· < ·)
  sorted' : q.track.Pairwise (· < ·)
  excl : q.exclusion = p.exclusion
  pw : p.w = w
  qw : q.w = w
  same : ∀ (i i' : Nat) (k : Int), p.track[i]? = some k → q.track[i']? = some k → ∀ c, p.values i c = q.values i' c

/-- In step, unless some column is not processed. -/
def MatchesO (w : Nat) : Option (RP K) → Option (RP K) → Prop
  | none, none => True
  | some p, some q => Matches w p q
  | _, _ => False

theorem matches_column {w : Nat} {p q : RP K} (h : Matches w p q) (fuel : Nat) (x : Int) (h0 : 0 ≤ x) (h1 : x < w) (values : List (List (Fl K))) :
    Alike (MatchesO w) (p.processColumn fuel x values) (q.processColumn fuel x values) := by
  obtain ⟨c, rfl⟩ := Int.eq_ofNat_of_zero_le h0
  unfold RP.processColumn
  rw [h.excl]
  refine (Alike.refl _).bind fun v _ hv => ?_
  subst hv
  cases e : lowestValueIdxs fuel v (some p.exclusion) with
  | error e => exact .err _
  | ok is =>
    cases is with
    | none => exact .ok trivial
    | some is =>
      have hlt : ∀ i ∈ is, i < v.length := by
        unfold lowestValueIdxs at e
        dsimp only at e
        split at e
        · cases e
        · simpa using lowestLoop_lt _ _ _ _ e
      have hz : ∀ r : RP K, (∀ k ∈ r.track, 0 ≤ k) → ∀ (a : Nat) (τ : Int), 0 ≤ a → r.track[a]? = some τ → ((0 : Nat) : Int) ≤ τ :=
        fun r hr a τ _ ha => by simpa using hr τ (List.mem_of_getElem? ha)
      obtain ⟨n, a1, a2, a3⟩ := RP.loop_spec p c (by rw [h.pw]; omega) v h.sorted is 0 0 p.values (List.length_pos_iff.mpr h.ne) hlt (hz p h.pos)
      obtain ⟨n', b1, b2, b3⟩ := RP.loop_spec q c (by rw [h.qw]; omega) v h.sorted' is 0 0 q.values (List.length_pos_iff.mpr h.ne') hlt (hz q h.pos')
      simp only [bind, Except.bind, pure, Except.pure, a1, b1]
      refine .ok (show Matches w _ _ from ⟨h.ne, h.ne', h.pos, h.pos', h.sorted, h.sorted', rfl, h.pw, h.qw, fun i i' k hi hi' j => ?_⟩)
      dsimp only at hi hi' ⊢
      by_cases hj : j = c
      · subst hj
        obtain ⟨k, rfl⟩ := Int.eq_ofNat_of_zero_le (h.pos k (List.mem_of_getElem? hi))
        rw [a3 i k (Nat.zero_le _) hi, b3 i' k (Nat.zero_le _) hi', h.same i i' k hi hi' j]
      · rw [a2 i j (.inl hj), b2 i' j (.inl hj), h.same i i' k hi hi' j]

theorem matches_inStep (fuel : Nat) (gops : GenOps G K) (h : Int) (w : Nat) :
    InStep h w True True True (fun ids ids' c c' => ids' = ids ∧ MatchesO w c c') (RP.ops fuel gops) (RP.ops fuel gops) := by
  refine InStep.of_same (P := fun _ => MatchesO w) rfl (fun _ _ p q hp x vals h0 h1 _ => ?_) (fun _ _ p q hp _ _ _ _ _ => ?_)
    (fun _ _ _ _ _ _ _ => .err _) (fun _ _ _ _ _ _ _ => .err _)
  · match p, q, hp with
    | none, none, _ => exact .ok trivial
    | some p, some q, hp => exact matches_column hp fuel x h0 h1 vals
  · match p, q, hp with
    | none, none, _ => exact .ok trivial
    | some p, some q, hp => exact .err _

theorem strict {l : List Int} (h : l.Pairwise (· ≤ ·)) (hn : l.Nodup) : l.Pairwise (· < ·) :=
  (h.and hn).imp fun h => lt_of_le_of_ne h.1 h.2

theorem matches_init (c : ((List Int × List Int) × Nat) × List Nat) (h1 : c.1.1.1 ≠ [] ∧ (∀ k ∈ c.1.1.1, 0 ≤ k) ∧ c.1.1.1.Nodup)
    (h2 : c.1.1.2 ≠ [] ∧ (∀ k ∈ c.1.1.2, 0 ≤ k) ∧ c.1.1.2.Nodup) (fuel : Nat) (gops : GenOps G K) (d : Nat) (h : Int) (w : Nat) :
    Alike (fun p q => c.2 = c.2 ∧ MatchesO w p q) ((RP.ops fuel gops).initialise (some (RP.new c.1.1.1 c.1.2)) d h w) ((RP.ops fuel gops).initialise (some (RP.new c.1.1.2 c.1.2)) d h w) := by
  obtain ⟨l, a1, a2, a3⟩ := trackIndices_ok c.1.1.1 h1.1 h1.2.1
  obtain ⟨l', b1, b2, b3⟩ := trackIndices_ok c.1.1.2 h2.1 h2.2.1
  show Alike _ ((RP.initialise c.1.1.1 (some (c.1.2 : Int)) w).map some) ((RP.initialise c.1.1.2 (some (c.1.2 : Int)) w).map some)
  simp only [RP.initialise, a1, b1, bind, Except.bind, pure, Except.pure, Int.toNat_natCast]
  rw [if_neg (by omega), if_neg (by omega), if_neg (by omega), if_neg (by omega)]
  exact .ok ⟨trivial, show Matches w _ _ from ⟨fun e => h1.1 (by simp only at e; subst e; exact a2.nil_eq.symm), fun e => h2.1 (by simp only at e; subst e; exact b2.nil_eq.symm),
    fun k hk => h1.2.1 k (a2.mem_iff.mp hk), fun k hk => h2.2.1 k (b2.mem_iff.mp hk), strict a3 (a2.nodup_iff.mpr h1.2.2), strict b3 (b2.nodup_iff.mpr h2.2.2), rfl, rfl, rfl,
    fun _ _ _ _ _ _ => rfl⟩⟩

end Separate

/-- **C115, `ThresholdCounter`.** Two calculations that differ in the thresholds of the consumers only: any generators, data and calls of `calculate_columns` and
`calculate_diagonals`. Both raise the same exception, or the rows of `counts` for equal thresholds are equal. -/
theorem C115_thresholds_batch (gops : GenOps G K) (shuffle : List Int → List Int) (hsh : ∀ l, ∀ d ∈ shuffle l, d ∈ l)
    (gens : List ((Int → List (Fl K) → Option (List (Fl K)) → Except PyErr G) × Nat)) (cs : List ((List (Fl K) × List (Fl K)) × List Nat))
    (needed : List Nat) (m : Int) (series : List (List (Fl K))) (query : Option (List (List (Fl K)))) (buffer : Option Int) (hs : m ≤ Anytime.npCols series) (calls : List Anytime.Op) :
    Alike (List.Forall₂ fun x y => y.2 = x.2 ∧ ∀ (t t' : Nat) (θ : Fl K), x.1.thresholds[t]? = some θ → y.1.thresholds[t']? = some θ →
        ∀ c, x.1.counts t c = y.1.counts t' c)
      (batchAll (TC.ops gops) shuffle gens (cs.map fun c => (TC.new c.1.1, c.2)) needed m series query buffer calls)
      (batchAll (TC.ops gops) shuffle gens (cs.map fun c => (TC.new c.1.2, c.2)) needed m series query buffer calls) := by
  obtain ⟨w, hw⟩ := Int.eq_ofNat_of_zero_le (show 0 ≤ Anytime.npCols series - m + 1 by omega)
  refine (batch_inStep shuffle hsh gens _ _ needed m series query buffer calls rfl hw.symm (by omega) (Separate.counts_inStep gops _ w) ?_ (fun o _ => by cases o <;> trivial)).mono
    fun a b hab => hab.imp fun x y ⟨e, h⟩ => ⟨e, h.same⟩
  rw [List.forall₂_map_left_iff, List.forall₂_map_right_iff]
  exact List.forall₂_same.mpr fun c hc => Separate.counts_init c gops _ _ w

/-- **C115, `ThresholdCounter`, streams.** The same for `StreamingCalculator`. -/
theorem C115_thresholds_stream (gops : GenOps G K) (gens : List ((Int → Int → Option Int → Except PyErr G) × Nat)) (cs : List ((List (Fl K) × List (Fl K)) × List Nat))
    (needed : List Nat) (m sw : Int) (qw : Option Int) (nDim : Nat) (buffer : Option Int) (hs : m ≤ sw) (calls : List (Streaming.Op K)) :
    Alike (List.Forall₂ fun x y => y.2 = x.2 ∧ ∀ (t t' : Nat) (θ : Fl K), x.1.thresholds[t]? = some θ → y.1.thresholds[t']? = some θ →
        ∀ c, x.1.counts t c = y.1.counts t' c)
      (streamAll (TC.ops gops) gens (cs.map fun c => (TC.new c.1.1, c.2)) needed m sw qw nDim buffer calls)
      (streamAll (TC.ops gops) gens (cs.map fun c => (TC.new c.1.2, c.2)) needed m sw qw nDim buffer calls) := by
  obtain ⟨w, hw⟩ := Int.eq_ofNat_of_zero_le (show 0 ≤ sw - m + 1 by omega)
  refine (stream_inStep gens _ _ needed m sw qw nDim buffer calls rfl hw.symm (by omega) (Separate.counts_inStep gops _ w) ?_).mono fun a b hab => hab.imp fun x y ⟨e, h⟩ => ⟨e, h.same⟩
  rw [List.forall₂_map_left_iff, List.forall₂_map_right_iff]
  exact List.forall₂_same.mpr fun c hc => Separate.counts_init c gops _ _ w

/-- **C115, `DistancedThresholdCounter`.** Two calculations that differ in the thresholds of the consumers only (at least one threshold each): both raise the same exception, or the
rows of `counts` for equal thresholds are equal. `np.argsort` may put equal numbers in any order. -/
theorem C115_distanced_batch (argsort : List (Fl K) → List Nat) (ho : ∀ l, ∀ i ∈ argsort l, i < l.length) (gops : GenOps G K) (shuffle : List Int → List Int) (hsh : ∀ l, ∀ d ∈ shuffle l, d ∈ l)
    (gens : List ((Int → List (Fl K) → Option (List (Fl K)) → Except PyErr G) × Nat)) (cs : List (((List (Fl K) × List (Fl K)) × Int) × List Nat)) (hcs : ∀ c ∈ cs, c.1.1.1 ≠ [] ∧ c.1.1.2 ≠ [])
    (needed : List Nat) (m : Int) (series : List (List (Fl K))) (query : Option (List (List (Fl K)))) (buffer : Option Int) (hs : m ≤ Anytime.npCols series) (calls : List Anytime.Op) :
    Alike (List.Forall₂ fun x y => y.2 = x.2 ∧ ∀ (t t' : Nat) (θ : Fl K), x.1.thresholds[t]? = some θ → y.1.thresholds[t']? = some θ →
        ∀ c, x.1.counts t c = y.1.counts t' c)
      (batchAll (DTC.ops argsort gops) shuffle gens (cs.map fun c => (DTC.new c.1.1.1 c.1.2, c.2)) needed m series query buffer calls)
      (batchAll (DTC.ops argsort gops) shuffle gens (cs.map fun c => (DTC.new c.1.1.2 c.1.2, c.2)) needed m series query buffer calls) := by
  obtain ⟨w, hw⟩ := Int.eq_ofNat_of_zero_le (show 0 ≤ Anytime.npCols series - m + 1 by omega)
  refine (batch_inStep shuffle hsh gens _ _ needed m series query buffer calls rfl hw.symm (by omega) (Separate.chosen_inStep argsort ho gops _ w) ?_ (fun o _ => by cases o <;> trivial)).mono
    fun a b hab => hab.imp fun x y ⟨e, h⟩ => ⟨e, h.same⟩
  rw [List.forall₂_map_left_iff, List.forall₂_map_right_iff]
  exact List.forall₂_same.mpr fun c hc => Separate.chosen_init c (hcs c hc).1 (hcs c hc).2 argsort gops _ _ w

/-- **C115, `DistancedThresholdCounter`, streams.** The same for `StreamingCalculator`. -/
theorem C115_distanced_stream (argsort : List (Fl K) → List Nat) (ho : ∀ l, ∀ i ∈ argsort l, i < l.length) (gops : GenOps G K) (gens : List ((Int → Int → Option Int → Except PyErr G) × Nat)) (cs : List (((List (Fl K) × List (Fl K)) × Int) × List Nat)) (hcs : ∀ c ∈ cs, c.1.1.1 ≠ [] ∧ c.1.1.2 ≠ [])
    (needed : List Nat) (m sw : Int) (qw : Option Int) (nDim : Nat) (buffer : Option Int) (hs : m ≤ sw) (calls : List (Streaming.Op K)) :
    Alike (List.Forall₂ fun x y => y.2 = x.2 ∧ ∀ (t t' : Nat) (θ : Fl K), x.1.thresholds[t]? = some θ → y.1.thresholds[t']? = some θ →
        ∀ c, x.1.counts t c = y.1.counts t' c)
      (streamAll (DTC.ops argsort gops) gens (cs.map fun c => (DTC.new c.1.1.1 c.1.2, c.2)) needed m sw qw nDim buffer calls)
      (streamAll (DTC.ops argsort gops) gens (cs.map fun c => (DTC.new c.1.1.2 c.1.2, c.2)) needed m sw qw nDim buffer calls) := by
  obtain ⟨w, hw⟩ := Int.eq_ofNat_of_zero_le (show 0 ≤ sw - m + 1 by omega)
  refine (stream_inStep gens _ _ needed m sw qw nDim buffer calls rfl hw.symm (by omega) (Separate.chosen_inStep argsort ho gops _ w) ?_).mono fun a b hab => hab.imp fun x y ⟨e, h⟩ => ⟨e, h.same⟩
  rw [List.forall₂_map_left_iff, List.forall₂_map_right_iff]
  exact List.forall₂_same.mpr fun c hc => Separate.chosen_init c (hcs c hc).1 (hcs c hc).2 argsort gops _ _ w

/-- **C115, `RadiusProfile0`.** Two calculations that differ in the track indices of the consumers only: both raise the same exception, or the rows of `values` for equal
track indices are equal. -/
theorem C115_radius0_batch (gops : GenOps G K) (shuffle : List Int → List Int) (hsh : ∀ l, ∀ d ∈ shuffle l, d ∈ l)
    (gens : List ((Int → List (Fl K) → Option (List (Fl K)) → Except PyErr G) × Nat)) (cs : List ((List Int × List Int) × List Nat))
    (hcs : ∀ c ∈ cs, (c.1.1 ≠ [] ∧ ∀ k ∈ c.1.1, 0 ≤ k) ∧ c.1.2 ≠ [] ∧ ∀ k ∈ c.1.2, 0 ≤ k)
    (needed : List Nat) (m : Int) (series : List (List (Fl K))) (query : Option (List (List (Fl K)))) (buffer : Option Int) (hs : m ≤ Anytime.npCols series) (calls : List Anytime.Op) :
    Alike (List.Forall₂ fun x y => y.2 = x.2 ∧ ∀ (i i' : Nat) (k : Int), x.1.track[i]? = some k → y.1.track[i']? = some k →
        ∀ c, x.1.values i c = y.1.values i' c)
      (batchAll (RP0.ops gops) shuffle gens (cs.map fun c => (RP0.new c.1.1, c.2)) needed m series query buffer calls)
      (batchAll (RP0.ops gops) shuffle gens (cs.map fun c => (RP0.new c.1.2, c.2)) needed m series query buffer calls) := by
  obtain ⟨w, hw⟩ := Int.eq_ofNat_of_zero_le (show 0 ≤ Anytime.npCols series - m + 1 by omega)
  refine (batch_inStep shuffle hsh gens _ _ needed m series query buffer calls rfl hw.symm (by omega) (Separate.ranks_inStep gops _ w) ?_ (fun o _ => by cases o <;> trivial)).mono
    fun a b hab => hab.imp fun x y ⟨e, h⟩ => ⟨e, h.same⟩
  rw [List.forall₂_map_left_iff, List.forall₂_map_right_iff]
  exact List.forall₂_same.mpr fun c hc => Separate.ranks_init c (hcs c hc).1 (hcs c hc).2 gops _ _ w

/-- **C115, `RadiusProfile0`, streams.** The same for `StreamingCalculator`. -/
theorem C115_radius0_stream (gops : GenOps G K) (gens : List ((Int → Int → Option Int → Except PyErr G) × Nat)) (cs : List ((List Int × List Int) × List Nat))
    (hcs : ∀ c ∈ cs, (c.1.1 ≠ [] ∧ ∀ k ∈ c.1.1, 0 ≤ k) ∧ c.1.2 ≠ [] ∧ ∀ k ∈ c.1.2, 0 ≤ k)
    (needed : List Nat) (m sw : Int) (qw : Option Int) (nDim : Nat) (buffer : Option Int) (hs : m ≤ sw) (calls : List (Streaming.Op K)) :
    Alike (List.Forall₂ fun x y => y.2 = x.2 ∧ ∀ (i i' : Nat) (k : Int), x.1.track[i]? = some k → y.1.track[i']? = some k →
        ∀ c, x.1.values i c = y.1.values i' c)
      (streamAll (RP0.ops gops) gens (cs.map fun c => (RP0.new c.1.1, c.2)) needed m sw qw nDim buffer calls)
      (streamAll (RP0.ops gops) gens (cs.map fun c => (RP0.new c.1.2, c.2)) needed m sw qw nDim buffer calls) := by
  obtain ⟨w, hw⟩ := Int.eq_ofNat_of_zero_le (show 0 ≤ sw - m + 1 by omega)
  refine (stream_inStep gens _ _ needed m sw qw nDim buffer calls rfl hw.symm (by omega) (Separate.ranks_inStep gops _ w) ?_).mono fun a b hab => hab.imp fun x y ⟨e, h⟩ => ⟨e, h.same⟩
  rw [List.forall₂_map_left_iff, List.forall₂_map_right_iff]
  exact List.forall₂_same.mpr fun c hc => Separate.ranks_init c (hcs c hc).1 (hcs c hc).2 gops _ _ w

/-- **C115, `RadiusProfile`.** Two calculations that differ in the track indices of the consumers only (no index twice in one consumer): both raise the same exception, or
the rows of `values` for equal track indices are equal. -/
theorem C115_radius_batch (fuel : Nat) (gops : GenOps G K) (shuffle : List Int → List Int) (hsh : ∀ l, ∀ d ∈ shuffle l, d ∈ l)
    (gens : List ((Int → List (Fl K) → Option (List (Fl K)) → Except PyErr G) × Nat)) (cs : List (((List Int × List Int) × Nat) × List Nat))
    (hcs : ∀ c ∈ cs, (c.1.1.1 ≠ [] ∧ (∀ k ∈ c.1.1.1, 0 ≤ k) ∧ c.1.1.1.Nodup) ∧ c.1.1.2 ≠ [] ∧ (∀ k ∈ c.1.1.2, 0 ≤ k) ∧ c.1.1.2.Nodup)
    (needed : List Nat) (m : Int) (series : List (List (Fl K))) (query : Option (List (List (Fl K)))) (buffer : Option Int) (hs : m ≤ Anytime.npCols series) (calls : List Anytime.Op) :
    Alike (List.Forall₂ fun x y => y.2 = x.2 ∧ ∀ p q, x.1 = some p → y.1 = some q → ∀ (i i' : Nat) (k : Int), p.track[i]? = some k → q.track[i']? = some k →
        ∀ c, p.values i c = q.values i' c)
      (batchAll (RP.ops fuel gops) shuffle gens (cs.map fun c => (some (RP.new c.1.1.1 c.1.2), c.2)) needed m series query buffer calls)
      (batchAll (RP.ops fuel gops) shuffle gens (cs.map fun c => (some (RP.new c.1.1.2 c.1.2), c.2)) needed m series query buffer calls) := by
  obtain ⟨w, hw⟩ := Int.eq_ofNat_of_zero_le (show 0 ≤ Anytime.npCols series - m + 1 by omega)
  refine (batch_inStep shuffle hsh gens _ _ needed m series query buffer calls rfl hw.symm (by omega) (Separate.matches_inStep fuel gops _ w) ?_ (fun o _ => by cases o <;> trivial)).mono
    fun a b hab => hab.imp fun x y ⟨e, h⟩ => ⟨e, fun p q hx hy => by rw [hx, hy] at h; exact h.same⟩
  rw [List.forall₂_map_left_iff, List.forall₂_map_right_iff]
  exact List.forall₂_same.mpr fun c hc => Separate.matches_init c (hcs c hc).1 (hcs c hc).2 fuel gops _ _ w

/-- **C115, `RadiusProfile`, streams.** The same for `StreamingCalculator`. -/
theorem C115_radius_stream (fuel : Nat) (gops : GenOps G K) (gens : List ((Int → Int → Option Int → Except PyErr G) × Nat)) (cs : List (((List Int × List Int) × Nat) × List Nat))
    (hcs : ∀ c ∈ cs, (c.1.1.1 ≠ [] ∧ (∀ k ∈ c.1.1.1, 0 ≤ k) ∧ c.1.1.1.Nodup) ∧ c.1.1.2 ≠ [] ∧ (∀ k ∈ c.1.1.2, 0 ≤ k) ∧ c.1.1.2.Nodup)
    (needed : List Nat) (m sw : Int) (qw : Option Int) (nDim : Nat) (buffer : Option Int) (hs : m ≤ sw) (calls : List (Streaming.Op K)) :
    Alike (List.Forall₂ fun x y => y.2 = x.2 ∧ ∀ p q, x.1 = some p → y.1 = some q → ∀ (i i' : Nat) (k : Int), p.track[i]? = some k → q.track[i']? = some k →
        ∀ c, p.values i c = q.values i' c)
      (streamAll (RP.ops fuel gops) gens (cs.map fun c => (some (RP.new c.1.1.1 c.1.2), c.2)) needed m sw qw nDim buffer calls)
      (streamAll (RP.ops fuel gops) gens (cs.map fun c => (some (RP.new c.1.1.2 c.1.2), c.2)) needed m sw qw nDim buffer calls) := by
  obtain ⟨w, hw⟩ := Int.eq_ofNat_of_zero_le (show 0 ≤ sw - m + 1 by omega)
  refine (stream_inStep gens _ _ needed m sw qw nDim buffer calls rfl hw.symm (by omega) (Separate.matches_inStep fuel gops _ w) ?_).mono fun a b hab => hab.imp fun x y ⟨e, h⟩ => ⟨e, fun p q hx hy => by rw [hx, hy] at h; exact h.same⟩
  rw [List.forall₂_map_left_iff, List.forall₂_map_right_iff]
  exact List.forall₂_same.mpr fun c hc => Separate.matches_init c (hcs c hc).1 (hcs c hc).2 fuel gops _ _ w

/-! ### Examples -/

section Examples

/-- One channel, `m = 1`. -/
abbrev sepGens : List ((Int → List (Fl ℚ) → Option (List (Fl ℚ)) → Except PyErr (ColCache ℚ)) × Nat) := [(fun m s q => Eucl.prepare zeroMem m.toNat s q, 0)]

/-- Columns, some of them twice. -/
abbrev sepColumns : List Anytime.Op := [.columns (fun _ => false) (some (.int 0)) (.int 2), .columns (fun _ => false) none (.float (.fin 1)), .columns (fun _ => false) (some (.int 1)) (.int 2)]

/-- Points of series and query in parts, columns in between. -/
abbrev sepStream : List (Streaming.Op ℚ) := [.series (.d2 [[.fin 1, .fin 5]] 2), .query (.d2 [[.fin 4, .fin 9, .fin 7]] 3), .columns (fun _ => false) (.int 2),
  .series (.d2 [[.fin 2, .fin 8]] 2), .columns (fun _ => false) (.float (.fin 1))]

/-- Thresholds 4, NaN, 25 next to 25, 1, 4, 4, and a second consumer; diagonals and columns. -/
example := C115_thresholds_batch (Eucl.genOps zeroMem (fun x : ℚ => x)) List.reverse (fun _ _ h => List.mem_reverse.mp h) sepGens
  [(([.fin 4, .nan, .fin 25], [.fin 25, .fin 1, .fin 4, .fin 4]), [0]), (([], [.pinf]), [0])] [0] 1 [[.fin 1, .fin 5, .fin 2, .fin 8]] (some [[.fin 4, .nan, .fin 7]]) none (by decide)
  (.diagonals (fun _ => false) (.float (.fin (1 / 2))) :: sepColumns)

example (os : List (Streaming.Op ℚ)) := C115_thresholds_stream (Eucl.genOps zeroMem (fun x : ℚ => x)) [(Eucl.streaming zeroMem 1, 0)]
  [(([.fin 4, .nan, .fin 25], [.fin 25, .fin 1, .fin 4, .fin 4]), [0])] [0] 1 4 (some 3) 1 none (by norm_num) (sepStream ++ os)

example := C115_distanced_batch exArgsort (fun l i hi => by simpa using (exArgsort_ok l).1.mem_iff.mp hi) (Eucl.genOps zeroMem (fun x : ℚ => x)) List.reverse
  (fun _ _ h => List.mem_reverse.mp h) sepGens [((([.fin 4, .fin 25], [.fin 25, .fin 1, .fin 9]), 1), [0])] (by simp) [0] 1 [[.fin 1, .fin 5, .fin 2, .fin 8]]
  (some [[.fin 4, .nan, .fin 7]]) none (by decide) sepColumns

example (os : List (Streaming.Op ℚ)) := C115_distanced_stream exArgsort (fun l i hi => by simpa using (exArgsort_ok l).1.mem_iff.mp hi) (Eucl.genOps zeroMem (fun x : ℚ => x))
  [(Eucl.streaming zeroMem 1, 0)] [((([.fin 4, .fin 25], [.fin 25, .fin 1, .fin 9]), 1), [0])] (by simp) [0] 1 4 (some 3) 1 none (by norm_num) (sepStream ++ os)

example := C115_radius0_batch (Eucl.genOps zeroMem (fun x : ℚ => x)) List.reverse (fun _ _ h => List.mem_reverse.mp h) sepGens
  [(([1, 0, 7], [2, 1, 1]), [0])] (by simp) [0] 1 [[.fin 1, .fin 5, .fin 2, .fin 8]] (some [[.fin 4, .nan, .fin 7]]) none (by decide) sepColumns

example (os : List (Streaming.Op ℚ)) := C115_radius0_stream (Eucl.genOps zeroMem (fun x : ℚ => x)) [(Eucl.streaming zeroMem 1, 0)]
  [(([1, 0, 7], [2, 1, 1]), [0])] (by simp) [0] 1 4 (some 3) 1 none (by norm_num) (sepStream ++ os)

example := C115_radius_batch 3 (Eucl.genOps zeroMem (fun x : ℚ => x)) List.reverse (fun _ _ h => List.mem_reverse.mp h) sepGens
  [((([1, 0, 7], [2, 1]), 1), [0])] (by simp) [0] 1 [[.fin 1, .fin 5, .fin 2, .fin 8]] (some [[.fin 4, .nan, .fin 7]]) none (by decide) sepColumns

example (os : List (Streaming.Op ℚ)) := C115_radius_stream 3 (Eucl.genOps zeroMem (fun x : ℚ => x)) [(Eucl.streaming zeroMem 1, 0)]
  [((([1, 0, 7], [2, 1]), 1), [0])] (by simp) [0] 1 4 (some 3) 1 none (by norm_num) (sepStream ++ os)

set_option synthInstance.maxSize 1000 in
/-- Two pairs of such calculations: distanced counts for thresholds 4, 25 and for 25, 1, 9 (both have a row for 25), radius profiles for 0, 1 and for 1, 2 (both have a row for 1). -/
example :
    ([[.fin 4, .fin 25], [.fin 25, .fin 1, .fin 9]].map fun thr => (batchAll (DTC.ops exArgsort (Eucl.genOps zeroMem (fun x : ℚ => x))) List.reverse sepGens [(DTC.new thr 1, [0])] [0] 1
        [[.fin 1, .fin 5, .fin 2, .fin 8]] (some [[.fin 4, .fin 9, .fin 7]]) none [.columns (fun _ => false) none (.float (.fin 1))]).map fun l =>
      l.map fun c => (List.range thr.length).map fun t => [0, 1, 2, 3].map (c.1.counts t)) = [.ok [[[0, 2, 1, 1], [1, 2, 2, 1]]], .ok [[[0, 1, 0, 1], [1, 2, 1, 1], [1, 2, 2, 1]]]] ∧
    ([[0, 1], [2, 1]].map fun track => (batchAll (RP.ops 3 (Eucl.genOps zeroMem (fun x : ℚ => x))) List.reverse sepGens [(some (RP.new track 0), [0])] [0] 1
        [[.fin 1, .fin 5, .fin 2, .fin 8]] (some [[.fin 4, .fin 9, .fin 7]]) none [.columns (fun _ => false) none (.float (.fin 1))]).map fun l =>
      l.map fun c => c.1.map fun p => [0, 1].map fun i => [0, 1, 2, 3].map (p.values i)) =
      [.ok [some [[.fin 9, .fin 1, .fin 4, .fin 1], [.fin 36, .fin 4, .fin 25, .fin 1]]], .ok [some [[.fin 36, .fin 4, .fin 25, .fin 1], [.fin 64, .fin 16, .fin 49, .fin 16]]]] := by
  decide +kernel

end Examples

end Verif
