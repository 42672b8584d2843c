import Verif.Model.ThresholdCounter
import Verif.Props.Insights
import Verif.Lemmas.Calculator

/-!
# C47: `DistancedThresholdCounter`
-/

namespace Verif
variable {K : Type} [LinearOrder K]

theorem wrapIdx_nat (n c : Nat) (h : c < n) : wrapIdx n (c : Int) = .ok c := by
  unfold wrapIdx
  simp only [show ¬ ((c : Int) < 0) by omega, if_false]
  rw [if_pos (by omega)]
  rfl

/-- The value at a position (NaN outside). -/
def at? (vals : List (Fl K)) (i : Nat) : Fl K := (vals[i]?).getD .nan

namespace DTC

theorem advance_spec (v : Fl K) (ts : List (Fl K)) : ∀ k : Nat,
    (advance v ts k = none ∧ ∀ θ ∈ ts, Fl.ltF θ v = true) ∨
    ∃ m < ts.length, advance v ts k = some (k + m) ∧ (∀ (a : Nat) (θ : Fl K), a < m → ts[a]? = some θ → Fl.ltF θ v = true) ∧
      ∃ θ, ts[m]? = some θ ∧ Fl.ltF θ v = false := by
  induction ts with
  | nil => intro k; exact .inl ⟨rfl, by simp⟩
  | cons t ts ih =>
    intro k
    unfold advance
    by_cases h : Fl.ltF t v = true
    · rw [if_pos h]
      rcases ih (k + 1) with ⟨h1, h2⟩ | ⟨m, hm, h1, h2, h3⟩
      · exact .inl ⟨h1, by simpa [h] using h2⟩
      · refine .inr ⟨m + 1, by simpa using hm, by rw [h1]; congr 1; omega, fun a θ ha ht => ?_, by simpa using h3⟩
        cases a with
        | zero => simp at ht; exact ht ▸ h
        | succ a => exact h2 a θ (by omega) (by simpa using ht)
    · rw [if_neg h]
      exact .inr ⟨0, by simp, rfl, by intro a θ ha; omega, t, rfl, by simpa using h⟩

theorem loop_spec (p : DTC K) (c : Nat) (hc : c < p.w) (vals : List (Fl K)) (hn : Fl.nan ∉ vals) (ex : Nat) (hex : p.exclusion = ex)
    (hthr : p.thresholds.Pairwise (· ≤ ·)) : ∀ (order : List Nat) (k : Nat) (excl : List Bool) (counts : Mat Nat) (sel : List Nat),
    (∀ i ∈ order, i < vals.length) → order.Pairwise (fun i j => at? vals i ≤ at? vals j) →
    (∀ (a : Nat) (θ : Fl K), a < k → p.thresholds[a]? = some θ → ∀ i ∈ order, Fl.ltF θ (at? vals i) = true) →
    excl.length = vals.length → (∀ j < vals.length, excl[j]? = some (decide (∃ s ∈ sel, Near ex s j))) →
    (∀ s ∈ sel, ∀ i ∈ order, at? vals s ≤ at? vals i) →
    ∃ (new : List Nat) (counts' : Mat Nat), p.loop c vals order k excl counts = .ok counts' ∧ new.Sublist order ∧
      new.Pairwise (fun i j => ¬ Near ex i j) ∧ (∀ s ∈ sel, ∀ i ∈ new, ¬ Near ex s i) ∧
      (∀ (t : Nat) (θ : Fl K), p.thresholds[t]? = some θ → counts' t c = counts t c + new.countP fun i => !Fl.ltF θ (at? vals i)) ∧
      (∀ t j, j ≠ c → counts' t j = counts t j) ∧
      (∀ i ∈ order, (∃ θ ∈ p.thresholds, Fl.ltF θ (at? vals i) = false) →
        ∃ s, (s ∈ sel ∨ s ∈ new) ∧ Near ex s i ∧ at? vals s ≤ at? vals i) := by
  intro order
  induction order with
  | nil =>
    intro k excl counts sel _ _ _ _ _ _
    exact ⟨[], counts, rfl, by simp, by simp, by simp, by simp, by simp, by simp⟩
  | cons i order ih =>
    intro k excl counts sel hlt hsort hk hel hexcl hsel
    have hi : i < vals.length := hlt i (by simp)
    have hval : vals[i]? = some (at? vals i) := by simp [at?, hi]
    have hnan : ∀ j ∈ i :: order, at? vals j ≠ .nan := by
      intro j hj h
      have hj' := hlt j hj
      have : vals[j]? = some (at? vals j) := by simp [at?, hj']
      exact hn (h ▸ List.mem_of_getElem? this)
    rw [List.pairwise_cons] at hsort
    have hget : pyGet vals (i : Int) = .ok (at? vals i) := (pyGet_nat_ok _ _ _).mpr hval
    have hgete : pyGet excl (i : Int) = .ok (decide (∃ s ∈ sel, Near ex s i)) := (pyGet_nat_ok _ _ _).mpr (hexcl i hi)
    have hmono : ∀ θ, Fl.ltF θ (at? vals i) = true → ∀ j ∈ i :: order, Fl.ltF θ (at? vals j) = true := by
      intro θ h j hj
      rw [Fl.ltF_iff] at h ⊢
      refine ⟨?_, hnan j hj⟩
      rcases List.mem_cons.mp hj with rfl | hj
      · exact h.1
      · exact lt_of_lt_of_le h.1 (hsort.1 j hj)
    rw [loop, hget]
    simp only [bind, Except.bind]
    rcases advance_spec (at? vals i) (p.thresholds.drop k) k with ⟨h1, h2⟩ | ⟨m, hm, h1, h2, θm, h3, h4⟩
    · -- the method returns
      simp only [h1]
      have hall : ∀ θ ∈ p.thresholds, Fl.ltF θ (at? vals i) = true := by
        intro θ hθ
        obtain ⟨a, ha⟩ := List.mem_iff_getElem?.mp hθ
        rcases Nat.lt_or_ge a k with h | h
        · exact hk a θ h ha i (by simp)
        · exact h2 θ (List.mem_of_getElem? (i := a - k) (by rw [List.getElem?_drop, show k + (a - k) = a by omega]; exact ha))
      refine ⟨[], counts, rfl, by simp, by simp, by simp, by simp, by simp, ?_⟩
      rintro j hj ⟨θ, hθ, hf⟩
      rw [hmono θ (hall θ hθ) j hj] at hf
      cases hf
    · simp only [h1, hgete]
      have hbefore : ∀ (a : Nat) (θ : Fl K), a < k + m → p.thresholds[a]? = some θ → Fl.ltF θ (at? vals i) = true := by
        intro a θ ha hθ
        rcases Nat.lt_or_ge a k with h | h
        · exact hk a θ h hθ i (by simp)
        · exact h2 (a - k) θ (by omega) (by rw [List.getElem?_drop, show k + (a - k) = a by omega]; exact hθ)
      have hafter : ∀ (t : Nat) (θ : Fl K), p.thresholds[t]? = some θ → (k + m ≤ t ↔ Fl.ltF θ (at? vals i) = false) := by
        intro t θ hθ
        constructor
        · intro hle
          rw [List.getElem?_drop] at h3
          rw [Fl.ltF_false_iff _ _ (hnan i (by simp))] at h4 ⊢
          rcases Nat.eq_or_lt_of_le hle with h | h
          · rw [h] at h3
            rw [h3] at hθ
            cases hθ
            exact h4
          · obtain ⟨g1, g2⟩ := List.getElem?_eq_some_iff.mp h3
            obtain ⟨g3, g4⟩ := List.getElem?_eq_some_iff.mp hθ
            have := List.pairwise_iff_getElem.mp hthr (k + m) t g1 g3 h
            rw [g2, g4] at this
            exact le_trans h4 this
        · intro hf
          by_contra hcon
          rw [hbefore t θ (by omega) hθ] at hf
          cases hf
      have hk' : ∀ (a : Nat) (θ : Fl K), a < k + m → p.thresholds[a]? = some θ → ∀ j ∈ order, Fl.ltF θ (at? vals j) = true :=
        fun a θ ha hθ j hj => hmono θ (hbefore a θ ha hθ) j (by simp [hj])
      by_cases he : ∃ s ∈ sel, Near ex s i
      · simp only [he, decide_true, if_true]
        obtain ⟨new, counts', g1, g2, g3, g4, g5, g6, g7⟩ := ih (k + m) excl counts sel (fun j hj => hlt j (by simp [hj])) hsort.2 hk' hel hexcl
          (fun s hs j hj => hsel s hs j (by simp [hj]))
        refine ⟨new, counts', g1, g2.cons _, g3, g4, g5, g6, ?_⟩
        intro j hj hθ
        rcases List.mem_cons.mp hj with rfl | hj
        · obtain ⟨s, hs, hns⟩ := he
          exact ⟨s, .inl hs, hns, hsel s hs j (by simp)⟩
        · exact g7 j hj hθ
      · simp only [he, decide_false, Bool.false_eq_true, if_false, wrapIdx_nat _ _ hc, hex]
        obtain ⟨new, counts', g1, g2, g3, g4, g5, g6, g7⟩ := ih (k + m)
          (pyFill excl (max 0 ((i : Int) - ex)) ((i : Int) + ex + 1) true)
          (fun t j => if k + m ≤ t ∧ j = c then counts t j + 1 else counts t j) (i :: sel)
          (fun j hj => hlt j (by simp [hj])) hsort.2 hk' (by simpa using hel) (by
            intro j hj
            have e1 : pyIdx excl.length (max 0 ((i : Int) - ex)) = min (i - ex) excl.length := by
              rw [pyIdx_nonneg _ _ (by omega)]; omega
            have e2 : pyIdx excl.length ((i : Int) + ex + 1) = min (i + ex + 1) excl.length := by
              rw [pyIdx_nonneg _ _ (by omega)]; omega
            rw [pyFill_getElem?, e1, e2, hexcl j hj]
            by_cases hnear : Near ex i j
            · rw [if_pos (by unfold Near at hnear; omega)]
              simp [hnear]
            · rw [if_neg (by unfold Near at hnear; omega)]
              simp [hnear]) (by
            intro s hs j hj
            rcases List.mem_cons.mp hs with rfl | hs
            · exact hsort.1 j hj
            · exact hsel s hs j (by simp [hj]))
        refine ⟨i :: new, counts', g1, g2.cons₂ _, ?_, ?_, ?_, ?_, ?_⟩
        · rw [List.pairwise_cons]
          exact ⟨fun j hj => g4 i (by simp) j hj, g3⟩
        · intro s hs j hj
          rcases List.mem_cons.mp hj with rfl | hj
          · exact fun h => he ⟨s, hs, h⟩
          · exact g4 s (by simp [hs]) j hj
        · intro t θ hθ
          rw [g5 t θ hθ, List.countP_cons]
          by_cases hle : k + m ≤ t
          · have := (hafter t θ hθ).mp hle
            simp [hle, this]
            omega
          · have : Fl.ltF θ (at? vals i) = true := by
              rw [← Bool.not_eq_false]
              exact fun h => hle ((hafter t θ hθ).mpr h)
            simp [hle, this]
        · intro t j hj
          rw [g6 t j hj]
          simp [hj]
        · intro j hj hθ
          rcases List.mem_cons.mp hj with rfl | hj
          · exact ⟨j, .inr (by simp), by unfold Near; omega, le_rfl⟩
          · obtain ⟨s, hs, hrest⟩ := g7 j hj hθ
            refine ⟨s, ?_, hrest⟩
            rcases hs with hs | hs
            · rcases List.mem_cons.mp hs with rfl | hs
              · exact .inr (by simp)
              · exact .inl hs
            · exact .inr (by simp [hs])

end DTC

/-- Possible results of `np.argsort`: the positions in order of non-decreasing value. -/
def Spec.IsArgsort (vals : List (Fl K)) (order : List Nat) : Prop :=
  order.Perm (List.range vals.length) ∧ order.Pairwise fun i j => ∀ x y, vals[i]? = some x → vals[j]? = some y → x ≤ y

/-- `S` is a best-first selection among the values `<= θ` with more than `ex` between selected positions: separated, in order of value, and every value
`<= θ` is within `ex` of a selected one that is no larger. -/
structure Spec.IsSelection (vals : List (Fl K)) (ex : Nat) (θ : Fl K) (S : List Nat) : Prop where
  below : ∀ i ∈ S, ∃ v, vals[i]? = some v ∧ v ≤ θ
  separated : S.Pairwise fun i j : Nat => (ex : Int) < |(i : Int) - j|
  sorted : S.Pairwise fun i j => ∀ x y, vals[i]? = some x → vals[j]? = some y → x ≤ y
  exhaustive : ∀ (j : Nat) (v : Fl K), vals[j]? = some v → v ≤ θ → ∃ i ∈ S, |(i : Int) - j| ≤ ex ∧ ∃ u, vals[i]? = some u ∧ u ≤ v

/-- **C47 (part).** A NaN-free column, any exclusion, any thresholds, any result of the sort: nothing is raised; for every threshold `θ` (not NaN) the
count of the column grows by the size of a best-first selection among the values `<= θ`; all the other counts stay. False for columns with NaN, see
`C47_nan_counted`. -/
theorem C47_selection_partial (thr : List (Fl K)) (hthr : thr ≠ []) (ex w : Nat) (p : DTC K) (hp : p.thresholds = npSort thr) (hpe : p.exclusion = ex)
    (hpw : p.w = w) (c : Nat) (hc : c < w) (vals : List (Fl K)) (hn : Fl.nan ∉ vals) (order : List Nat) (ho : Spec.IsArgsort vals order) :
    ∃ p', p.processColumn order c [vals] = .ok p' ∧ p'.thresholds = npSort thr ∧ p'.exclusion = ex ∧ p'.w = w ∧
      (∀ t j, j ≠ c → p'.counts t j = p.counts t j) ∧
      ∃ sel : List Nat, ∀ (t : Nat) (θ : Fl K), (npSort thr)[t]? = some θ → θ ≠ .nan →
        p'.counts t c = p.counts t c + (sel.filter fun i => decide (at? vals i ≤ θ)).length ∧
        Spec.IsSelection vals ex θ (sel.filter fun i => decide (at? vals i ≤ θ)) := by
  have hlt : ∀ i ∈ order, i < vals.length := fun i hi => by simpa using ho.1.mem_iff.mp hi
  have hat : ∀ i < vals.length, vals[i]? = some (at? vals i) := fun i hi => by simp [at?, hi]
  have hsort : order.Pairwise (fun i j => at? vals i ≤ at? vals j) :=
    ho.2.imp_of_mem fun {i j} hi hj h => h _ _ (hat i (hlt i hi)) (hat j (hlt j hj))
  have hsorted : p.thresholds.Pairwise (· ≤ ·) := by rw [hp]; exact List.pairwise_insertionSort _ _
  obtain ⟨new, counts', g1, g2, g3, -, g5, g6, g7⟩ := DTC.loop_spec p c (hpw ▸ hc) vals hn ex hpe hsorted order 0
    (List.replicate vals.length false) p.counts [] hlt hsort (by intro a θ ha; omega) (by simp) (by intro j hj; simp [hj]) (by simp)
  obtain ⟨t0, ht0⟩ : ∃ t0, pyGet p.thresholds 0 = .ok t0 := by
    have : 0 < p.thresholds.length := by
      rw [hp, npSort, List.length_insertionSort]
      exact List.length_pos_iff.mpr hthr
    exact ⟨p.thresholds[0], (pyGet_nat_ok _ 0 _).mpr (by simp [this])⟩
  refine ⟨⟨p.thresholds, p.exclusion, p.w, counts'⟩, ?_, hp, hpe, hpw, g6, new, fun t θ hθ hne => ?_⟩
  · simp only [DTC.processColumn, show pyGet [vals] 0 = .ok vals from rfl, bind, Except.bind, ht0, g1]
    rfl
  have hnan : ∀ i ∈ order, at? vals i ≠ .nan := by
    intro i hi h
    exact hn (h ▸ List.mem_of_getElem? (hat i (hlt i hi)))
  have hpred : ∀ i ∈ order, (!Fl.ltF θ (at? vals i)) = decide (at? vals i ≤ θ) := by
    intro i hi
    by_cases h : at? vals i ≤ θ
    · rw [(Fl.ltF_false_iff _ _ (hnan i hi)).mpr h]; simp [h]
    · have : Fl.ltF θ (at? vals i) = true := by
        rw [← Bool.not_eq_false, Fl.ltF_false_iff _ _ (hnan i hi)]; exact h
      simp [this, h]
  refine ⟨?_, ?_, ?_, ?_, ?_⟩
  · show counts' t c = _
    rw [g5 t θ (by rw [hp]; exact hθ), ← List.countP_eq_length_filter]
    congr 1
    apply List.countP_congr
    intro i hi
    rw [hpred i (g2.subset hi)]
  · intro i hi
    rw [List.mem_filter, decide_eq_true_eq] at hi
    exact ⟨_, hat i (hlt i (g2.subset hi.1)), hi.2⟩
  · refine (g3.filter _).imp fun {i j} h => ?_
    unfold Near at h
    rw [lt_abs]
    omega
  · exact (ho.2.sublist g2).filter _
  · intro j v hj hv
    have hjl := (List.getElem?_eq_some_iff.mp hj).1
    rw [hat j hjl] at hj
    cases hj
    have hjo : j ∈ order := ho.1.mem_iff.mpr (by simpa using hjl)
    obtain ⟨s, hs, hnear, hle⟩ := g7 j hjo ⟨θ, by rw [hp]; exact List.mem_of_getElem? hθ, (Fl.ltF_false_iff _ _ (hnan j hjo)).mpr hv⟩
    have hs : s ∈ new := by simpa using hs
    refine ⟨s, List.mem_filter.mpr ⟨hs, by simpa using le_trans hle hv⟩, ?_, _, hat s (hlt s (g2.subset hs)), hle⟩
    unfold Near at hnear
    rw [abs_le]
    omega

/-- The selection is determined when all values differ: any two best-first selections contain the same positions. -/
theorem C47_selection_unique (vals : List (Fl K)) (ex : Nat) (θ : Fl K) (hd : ∀ (i j : Nat) (v : Fl K), vals[i]? = some v → vals[j]? = some v → i = j)
    (S T : List Nat) (hS : Spec.IsSelection vals ex θ S) (hT : Spec.IsSelection vals ex θ T) : ∀ i, i ∈ S ↔ i ∈ T := by
  have hsep : ∀ {S : List Nat}, Spec.IsSelection vals ex θ S → ∀ i ∈ S, ∀ j ∈ S, |(i : Int) - j| ≤ ex → i = j := by
    intro S hS i hi j hj h
    by_contra hne
    have key : ∀ (l : List Nat), l.Pairwise (fun i j : Nat => (ex : Int) < |(i : Int) - j|) → i ∈ l → j ∈ l → (ex : Int) < |(i : Int) - j| := by
      intro l
      induction l with
      | nil => simp
      | cons a l ih =>
        intro hp hi hj
        rw [List.pairwise_cons] at hp
        rcases List.mem_cons.mp hi with rfl | hi
        · rcases List.mem_cons.mp hj with rfl | hj
          · exact absurd rfl hne
          · exact hp.1 j hj
        · rcases List.mem_cons.mp hj with rfl | hj
          · rw [abs_sub_comm]; exact hp.1 i (by assumption)
          · exact ih hp.2 (by assumption) hj
    have := key S hS.separated hi hj
    omega
  -- induction over the value, by the number of smaller values
  have main : ∀ (n : Nat) (S T : List Nat), Spec.IsSelection vals ex θ S → Spec.IsSelection vals ex θ T → ∀ (i : Nat) (v : Fl K), vals[i]? = some v →
      (vals.countP fun x => decide (x < v)) < n → i ∈ S → i ∈ T := by
    intro n
    induction n with
    | zero => intro S T _ _ i v _ h; omega
    | succ n ih =>
      intro S T hS hT i v hv hcount hi
      obtain ⟨v', hv', hle⟩ := hS.below i hi
      rw [hv] at hv'
      cases hv'
      obtain ⟨j, hj, hnear, u, hu, huv⟩ := hT.exhaustive i v hv hle
      rcases eq_or_lt_of_le huv with rfl | hlt
      · rw [hd i j u hv hu]; exact hj
      · have hsmaller : (vals.countP fun x => decide (x < u)) < vals.countP fun x => decide (x < v) := by
          have h1 : (vals.countP fun x => decide (x < u)) < vals.countP fun x => decide (x ≤ u) := by
            have : ∀ (l : List (Fl K)), u ∈ l → (l.countP fun x => decide (x < u)) < l.countP fun x => decide (x ≤ u) := by
              intro l
              induction l with
              | nil => simp
              | cons a l ih =>
                intro hm
                rw [List.countP_cons, List.countP_cons]
                have hmono : (l.countP fun x => decide (x < u)) ≤ l.countP fun x => decide (x ≤ u) :=
                  List.countP_mono_left fun x _ hx => by simp at hx ⊢; exact hx.le
                by_cases ha : a = u
                · subst ha; simp; omega
                · have := ih (by simpa [Ne.symm ha] using hm)
                  by_cases h2 : a < u
                  · simp [h2, h2.le]; exact this
                  · have h3 : ¬ a ≤ u := fun h => h2 (lt_of_le_of_ne h ha)
                    simp [h2, h3]; exact this
            exact this vals (List.mem_of_getElem? hu)
          refine lt_of_lt_of_le h1 (List.countP_mono_left fun x _ hx => ?_)
          simp at hx ⊢
          exact lt_of_le_of_lt hx hlt
        have hjS : j ∈ S := ih T S hT hS j u hu (by omega) hj
        have := hsep hS i hi j hjS (by rw [abs_sub_comm]; exact hnear)
        rw [this]
        exact hj
  intro i
  constructor
  · intro hi
    obtain ⟨v, hv, -⟩ := hS.below i hi
    exact main _ S T hS hT i v hv (Nat.lt_succ_self _) hi
  · intro hi
    obtain ⟨v, hv, -⟩ := hT.below i hi
    exact main _ T S hT hS i v hv (Nat.lt_succ_self _) hi

/-- Values 3, 1, inf, 2 with exclusion 1 and threshold 5: positions 1 and 3 are selected. -/
theorem selection_case : Spec.IsSelection ([.fin 3, .fin 1, .pinf, .fin 2] : List (Fl ℚ)) 1 (.fin 5) [1, 3] := by
  refine ⟨by decide +kernel, by decide, by simp, ?_⟩
  rintro (_ | _ | _ | _ | j) v hv hle <;> simp at hv <;> subst hv
  · exact ⟨1, by simp, by decide, .fin 1, by simp, by decide +kernel⟩
  · exact ⟨1, by simp, by decide, .fin 1, by simp, by decide +kernel⟩
  · exact absurd hle (by decide +kernel)
  · exact ⟨3, by simp, by decide, .fin 2, by simp, by decide +kernel⟩

example := C47_selection_unique ([.fin 3, .fin 1, .pinf, .fin 2] : List (Fl ℚ)) 1 (.fin 5) (by
  rintro (_ | _ | _ | _ | i) (_ | _ | _ | _ | j) v h1 h2 <;> simp at h1 h2 <;> first | rfl | (subst h1; simp at h2; try norm_num at h2)) [1, 3] [1, 3] selection_case

/-- **C47 fails with NaN**: a NaN is counted as a match for every threshold not passed yet, although it is not `<=` any. -/
theorem C47_nan_counted : ∃ p : DTC ℚ, DTC.initialise [.fin 1] 0 1 = .ok p ∧ Spec.IsArgsort ([.nan, .fin 1] : List (Fl ℚ)) [1, 0] ∧
    ((p.processColumn [1, 0] 0 [[.nan, .fin 1]]).map fun p => p.counts 0 0) = .ok 2 ∧ Fl.leF (.nan : Fl ℚ) (.fin 1) = false := by
  refine ⟨_, rfl, ⟨by decide, ?_⟩, by decide +kernel, by decide⟩
  simp

/-- No thresholds: `IndexError`. Diagonals are rejected. -/
theorem C47_invalid (p : DTC K) (hp : p.thresholds = []) (order : List Nat) (c d : Int) (vals : List (Fl K)) (values : List (List (Fl K))) :
    p.processColumn order c [vals] = .error .indexError ∧ p.processDiagonal d values = .error .notImplemented := by
  refine ⟨?_, rfl⟩
  simp only [DTC.processColumn, show pyGet [vals] 0 = .ok vals from rfl, bind, Except.bind, hp]
  rfl

example := C47_invalid (K := ℚ) ⟨[], 1, 2, fun _ _ => 0⟩ rfl [0] 0 1 [.fin 1] [[.fin 2]]

/-- C47 is not vacuous: unsorted thresholds, ties, an infinity, exclusion 1. -/
example : (((DTC.initialise [.fin 5, .fin 2] 1 2 : Except PyErr (DTC ℚ)).bind fun p =>
      p.processColumn [1, 2, 4, 5, 0, 3] 1 [[.fin 3, .fin 1, .fin 1, .pinf, .fin 2, .fin 2]]).map fun p =>
      (List.range 2).map fun t => (List.range 2).map fun c => p.counts t c) = .ok [[0, 2], [0, 2]] ∧
    Spec.IsArgsort ([.fin 3, .fin 1, .fin 1, .pinf, .fin 2, .fin 2] : List (Fl ℚ)) [1, 2, 4, 5, 0, 3] := by
  refine ⟨by decide +kernel, by decide, ?_⟩
  simp only [List.pairwise_cons]
  simp [Fl.le_pinf_iff]
  norm_num

/-- `C47_selection_partial`: thresholds 5 and 2, exclusion 1. -/
example := C47_selection_partial (K := ℚ) [.fin 5, .fin 2] (by simp) 1 2 ⟨npSort [.fin 5, .fin 2], 1, 2, fun _ _ => 0⟩ rfl rfl rfl 1 (by decide) [.fin 3, .fin 1, .pinf, .fin 2] (by simp)
  [1, 3, 0, 2] ⟨by decide, by simp only [List.pairwise_cons]; simp [Fl.le_pinf_iff]; norm_num⟩

end Verif
