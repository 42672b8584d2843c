import Verif.Model.OstinatoSubset
import Verif.Props.Ostinato
import Verif.Props.EndToEnd

/-!
The k-of-n consensus search over abstract generators.
-/

namespace Verif
open Spec
namespace Ostinato

section Kth
variable {K : Type} [LinearOrder K]

theorem _root_.Verif.Spec.IsKthLargest.mono {p : Nat} {l l' : List K} {r r' : K} (hl : l.Sublist l') (h : IsKthLargest p l r) (h' : IsKthLargest p l' r') : r ≤ r' := by
  by_contra hc
  rw [not_le] at hc
  have h1 : l.countP (fun x => decide (r ≤ x)) ≤ l'.countP (fun x => decide (r' < x)) :=
    (hl.countP_le).trans (List.countP_mono_left fun x _ hx => by
      simp only [decide_eq_true_eq] at hx ⊢
      exact hc.trans_le hx)
  have := h.1
  have := h'.2
  omega

theorem _root_.Verif.Spec.IsKthLargest.unique {p : Nat} {l : List K} {r r' : K} (h : IsKthLargest p l r) (h' : IsKthLargest p l r') : r = r' :=
  le_antisymm (h.mono (List.Sublist.refl _) h') (h'.mono (List.Sublist.refl _) h)

theorem _root_.Verif.Spec.IsKthLargest.perm {p : Nat} {l l' : List K} {r : K} (hp : l.Perm l') (h : IsKthLargest p l r) : IsKthLargest p l' r :=
  ⟨by rw [← hp.countP_eq]; exact h.1, by rw [← hp.countP_eq]; exact h.2⟩

/-- `R` holds the `p` largest elements of `P`. -/
def Top (p : Nat) (P R : List K) : Prop := R.length = p ∧ ∃ D, (R ++ D).Perm P ∧ ∀ d ∈ D, ∀ x ∈ R, d ≤ x

theorem Top.self (P : List K) : Top P.length P P := ⟨rfl, [], by simp, by simp⟩

theorem Top.perm {p : Nat} {P R R' : List K} (h : Top p P R) (hp : R'.Perm R) : Top p P R' := by
  obtain ⟨h1, D, h2, h3⟩ := h
  exact ⟨by rw [hp.length_eq, h1], D, (hp.append_right D).trans h2, fun d hd x hx => h3 d hd x (hp.mem_iff.mp hx)⟩

theorem Top.kth {p : Nat} {P R : List K} (h : Top p P R) {r : K} (hr : r ∈ R) (hmin : ∀ x ∈ R, r ≤ x) : IsKthLargest p P r := by
  obtain ⟨h1, D, h2, h3⟩ := h
  refine IsKthLargest.perm h2 ⟨?_, ?_⟩
  · rw [List.countP_append, List.countP_eq_length.mpr (fun x hx => by simpa using hmin x hx)]
    omega
  · have h0 : D.countP (fun x => decide (r < x)) = 0 := List.countP_eq_zero.mpr (fun d hd => by simpa using h3 d hd r hr)
    rw [List.countP_append, h0, Nat.add_zero]
    have h4 : R.countP (fun x => decide (r < x)) ≤ R.length := List.countP_le_length
    have h5 : R.countP (fun x => decide (r < x)) ≠ R.length := by
      intro he
      have := List.countP_eq_length.mp he r hr
      simp at this
    omega

/-- One more element. -/
theorem Top.step {p : Nat} {P R : List K} {r0 : K} (h : Top p P (r0 :: R)) (hs : ∀ x ∈ R, r0 ≤ x) (x : K) : Top p (P ++ [x]) (max r0 x :: R) := by
  obtain ⟨h1, D, h2, h3⟩ := h
  refine ⟨by simpa using h1, ?_⟩
  rcases le_total x r0 with hx | hx
  · rw [max_eq_left hx]
    refine ⟨D ++ [x], ?_, ?_⟩
    · rw [← List.append_assoc]
      exact h2.append_right [x]
    · intro d hd y hy
      rcases List.mem_append.mp hd with hd | hd
      · exact h3 d hd y hy
      · rw [List.mem_singleton] at hd
        subst hd
        rcases List.mem_cons.mp hy with rfl | hy
        · exact hx
        · exact hx.trans (hs y hy)
  · rw [max_eq_right hx]
    refine ⟨r0 :: D, ?_, ?_⟩
    · have e1 : (x :: R ++ r0 :: D).Perm (x :: (r0 :: R ++ D)) := by
        rw [List.cons_append]
        refine List.Perm.cons _ ?_
        rw [List.cons_append]
        exact List.perm_middle
      exact e1.trans ((List.Perm.cons x h2).trans (List.perm_append_singleton x P).symm)
    · intro d hd y hy
      rcases List.mem_cons.mp hd with rfl | hd
      · rcases List.mem_cons.mp hy with rfl | hy
        · exact hx
        · exact hs y hy
      · have := h3 d hd r0 (by simp)
        rcases List.mem_cons.mp hy with rfl | hy
        · exact this.trans hx
        · exact h3 d hd y (by simp [hy])

theorem npSort_fin (R : List K) (hne : R ≠ []) : ∃ r0 R', npSort (R.map Fl.fin) = (r0 :: R').map Fl.fin ∧ (r0 :: R').Perm R ∧ ∀ x ∈ R', r0 ≤ x := by
  have h1 : npSort (R.map Fl.fin) = (R.insertionSort (· ≤ ·)).map Fl.fin := by
    unfold npSort
    rw [List.map_insertionSort (r := (· ≤ ·)) (s := (· ≤ ·))]
    intro a _ b _
    simp
  have h2 : (R.insertionSort (· ≤ ·)).Perm R := List.perm_insertionSort _ _
  have h3 : (R.insertionSort (· ≤ ·)).Pairwise (· ≤ ·) := List.pairwise_insertionSort _ _
  cases h : R.insertionSort (· ≤ ·) with
  | nil => rw [h] at h2; exact absurd h2.symm.eq_nil hne
  | cons r0 R' =>
    rw [h] at h1 h2 h3
    exact ⟨r0, R', h1, h2, (List.pairwise_cons.mp h3).1⟩

theorem npMin_fin (R : List K) (hne : R ≠ []) : ∃ r, npMin (R.map Fl.fin) = .ok (.fin r) ∧ r ∈ R ∧ ∀ x ∈ R, r ≤ x := by
  obtain ⟨x, h1, h2, -, h4⟩ := npMin_spec (R.map Fl.fin) (by simpa using hne)
  obtain ⟨r, hr, rfl⟩ := List.mem_map.mp h2
  exact ⟨r, h1, hr, fun y hy => (Fl.fin_le_fin _ _).mp (h4 (by simp) _ (List.mem_map.mpr ⟨y, hy, rfl⟩))⟩

end Kth

section Search
variable {G K : Type} [LinearOrder K]

/-- Generator `o` answers for the window `w`: after `append_series(w)`, column 0 has the minimum `b o`. -/
def Probes (gops : GenOps G K) (n : Nat) (Inv : Nat → G → Prop) (w : List (Fl K)) (b : Nat → K) : Prop :=
  ∀ o < n, ∀ g, Inv o g → ∃ g1 g2 d, gops.appendSeries g w = .ok g1 ∧ gops.calcColumn g1 0 = .ok (g2, d) ∧ npMin d = .ok (.fin (b o)) ∧ Inv o g2

/-- All generators are there and in a good state. -/
def GenList (n : Nat) (Inv : Nat → G → Prop) (gens : List G) : Prop := gens.length = n ∧ ∀ (o : Nat) g, gens[o]? = some g → Inv o g

theorem pySet_nat {α : Type} (l : List α) (i : Nat) (x : α) (h : i < l.length) : pySet l (i : Int) x = .ok (l.set i x) := by
  unfold pySet
  simp only [show ¬ ((i : Int) < 0) by omega, if_false, Int.toNat_natCast, if_pos h]

theorem checkRest_ok {gops : GenOps G K} {n : Nat} {Inv : Nat → G → Prop} {w : List (Fl K)} {b : Nat → K} (H : Probes gops n Inv w b) (best : Fl K)
    (p : Nat) (hp : 0 < p) (os : List Nat) (hos : ∀ o ∈ os, o < n) : ∀ (gens : List G) (P R : List K), GenList n Inv gens → Top p P R →
      ∃ gens' R' ab, checkRest gops w best gens (R.map .fin) os = .ok (gens', R'.map .fin, ab) ∧ GenList n Inv gens' ∧
        (ab = true → ∃ r0, best ≤ .fin r0 ∧ ∀ r, IsKthLargest p (P ++ os.map b) r → r0 ≤ r) ∧ (ab = false → Top p (P ++ os.map b) R') := by
  induction os with
  | nil => intro gens P R hg hT; exact ⟨gens, R, false, rfl, hg, by simp, fun _ => by simpa using hT⟩
  | cons o os ih =>
    intro gens P R hg hT
    have hne : R ≠ [] := by rintro rfl; have := hT.1; simp at this; omega
    obtain ⟨r0, R', h1, h2, h3⟩ := npSort_fin R hne
    have hT' := hT.perm h2
    rw [checkRest]
    have e0 : pyGet ((r0 :: R').map Fl.fin) (0 : Int) = .ok (.fin r0) := (pyGet_nat_ok _ 0 _).mpr rfl
    simp only [h1, e0, bind, Except.bind]
    by_cases hb : best.leF (.fin r0) = true
    · rw [if_pos hb]
      refine ⟨gens, r0 :: R', true, rfl, hg, fun _ => ⟨r0, ((Fl.leF_iff _ _).mp hb).1, fun r hr => ?_⟩, by simp⟩
      have hk : IsKthLargest p P r0 := hT'.kth (by simp) (by
        intro x hx
        rcases List.mem_cons.mp hx with rfl | hx
        · exact le_rfl
        · exact h3 x hx)
      exact hk.mono (List.sublist_append_left _ _) hr
    · rw [if_neg hb]
      have ho := hos o (by simp)
      have ho' : o < gens.length := by rw [hg.1]; exact ho
      obtain ⟨g1, g2, d, q1, q2, q3, q4⟩ := H o ho gens[o] (hg.2 o _ (List.getElem?_eq_getElem ho'))
      have e1 : pyGet gens (o : Int) = .ok gens[o] := (pyGet_nat_ok _ _ _).mpr (List.getElem?_eq_getElem ho')
      have e2 : pySet ((r0 :: R').map Fl.fin) (0 : Int) (.fin (max r0 (b o))) = .ok ((max r0 (b o) :: R').map Fl.fin) :=
        pySet_nat _ 0 _ (by simp)
      simp only [e1, q1, q2, q3, pyMax_fin, e2, pySet_nat gens o g2 ho']
      obtain ⟨gens', R'', ab, j1, j2, j3, j4⟩ := ih (fun o ho => hos o (by simp [ho])) (gens.set o g2) (P ++ [b o]) (max r0 (b o) :: R')
        ⟨by simpa using hg.1, by
          intro o' g hg'
          rw [List.getElem?_set] at hg'
          split at hg'
          · rename_i h; subst h
            cases hg'; exact q4
          · exact hg.2 o' g hg'⟩ (hT'.step h3 (b o))
      have e3 : P ++ [b o] ++ os.map b = P ++ (o :: os).map b := by simp
      rw [e3] at j3 j4
      exact ⟨gens', R'', ab, j1, j2, j3, j4⟩

/-- What is known about the best result once the candidates in `S` have been dealt with, for any notion of radius. -/
def Best (n : Nat) (len : Nat → Nat) (Rd : Nat → Nat → K → Prop) (best : CMResult K) (S : Set (Nat × Nat)) : Prop :=
  (∀ p ∈ S, ∀ r, Rd p.1 p.2 r → best.radius ≤ .fin r) ∧
  (best = ⟨.pinf, -1, -1⟩ ∨ ∃ (i a : Nat) (r : K), best = ⟨.fin r, i, a⟩ ∧ i < n ∧ a < len i ∧ Rd i a r)

theorem Best.not_nan {n : Nat} {len : Nat → Nat} {Rd : Nat → Nat → K → Prop} {best : CMResult K} {S : Set (Nat × Nat)}
    (h : Best n len Rd best S) : best.radius ≠ .nan := by
  rcases h.2 with h | ⟨i, a, r, h, -⟩ <;> rw [h] <;> simp

/-- The series consulted for a candidate of series `i`. -/
def consulted (n ignored : Nat) (others : List Nat) (i : Nat) : List Nat :=
  (List.range (ignored + 1)).map (fun t => (i + 1 + t) % n) ++ others

theorem subsetCandidates_ok {gops : GenOps G K} {n : Nat} {len : Nat → Nat} {B : Nat → Nat → Nat → K} {Inv : Nat → G → Prop} (ignored : Nat)
    (others : Nat → List Nat) (i : Nat) (hoth : ∀ o ∈ others i, o < n) (hi : i < n) (active : List (Fl K)) (m : Int)
    (H : ∀ a : Nat, a < len i → Probes gops n Inv (pySlice active a (a + m)) (B i a)) (as : List Nat) (has : ∀ a ∈ as, a < len i) :
    let Rd : Nat → Nat → K → Prop := fun i a r => IsKthLargest (ignored + 1) ((consulted n ignored (others i) i).map (B i a)) r
    let mps : List (List (Fl K)) := (List.range (ignored + 1)).map fun t => (List.range (len i)).map fun a => Fl.fin (B i a ((i + 1 + t) % n))
    ∀ (gens : List G) (best : CMResult K) (S : Set (Nat × Nat)), GenList n Inv gens → Best n len Rd best S →
      ∃ gens' best', subsetCandidates gops (others i) i active m mps gens best as = .ok (gens', best') ∧ GenList n Inv gens' ∧
        Best n len Rd best' (S ∪ {p | p.1 = i ∧ p.2 ∈ as}) := by
  intro Rd mps
  induction as with
  | nil =>
    intro gens best S hg hb
    refine ⟨gens, best, rfl, hg, ?_⟩
    have : ({p | p.1 = i ∧ p.2 ∈ ([] : List Nat)} : Set (Nat × Nat)) = ∅ := by ext; simp
    rw [this, Set.union_empty]; exact hb
  | cons a as ih =>
    intro gens best S hg hb
    have ha := has a (by simp)
    rw [subsetCandidates]
    have e1 : mps.mapM (pyGet · (a : Int)) = .ok (((List.range (ignored + 1)).map fun t => B i a ((i + 1 + t) % n)).map Fl.fin) := by
      rw [mapM_ok_iff, List.map_map, List.forall₂_map_left_iff, List.forall₂_map_right_iff]
      refine List.forall₂_same.mpr fun t _ => ?_
      rw [pyGet_nat_ok, List.getElem?_map, List.getElem?_range ha]
      rfl
    set P : List K := (List.range (ignored + 1)).map fun t => B i a ((i + 1 + t) % n) with hP
    have hT : Top (ignored + 1) P P := by
      have := Top.self P
      rwa [show P.length = ignored + 1 by simp [hP]] at this
    have hcons : P ++ (others i).map (B i a) = (consulted n ignored (others i) i).map (B i a) := by
      rw [consulted, List.map_append, List.map_map]
      rfl
    obtain ⟨gens1, R', ab, c1, c2, c3, c4⟩ := checkRest_ok (H a ha) best.radius (ignored + 1) (by omega) (others i) hoth gens P P hg hT
    rw [hcons] at c3 c4
    obtain ⟨best1, i1, i2⟩ : ∃ best1, improveMin best (R'.map .fin) ab i a = .ok best1 ∧ Best n len Rd best1 (S ∪ {(i, a)}) := by
      unfold improveMin
      cases ab with
      | true =>
        refine ⟨best, by simp, ?_, hb.2⟩
        obtain ⟨r0, k1, k2⟩ := c3 rfl
        rintro p (hp | hp) r hr
        · exact hb.1 p hp r hr
        · rw [Set.mem_singleton_iff] at hp
          subst hp
          exact k1.trans ((Fl.fin_le_fin _ _).mpr (k2 r hr))
      | false =>
        have hT' := c4 rfl
        obtain ⟨ρ, n1, n2, n3⟩ := npMin_fin R' (by rintro rfl; have := hT'.1; simp at this)
        have hkth : Rd i a ρ := hT'.kth n2 n3
        simp only [Bool.false_eq_true, if_false, n1, bind, Except.bind, pure, Except.pure]
        refine ⟨_, rfl, ?_⟩
        by_cases hlt : (Fl.fin ρ).ltF best.radius = true
        · rw [if_pos hlt]
          have hlt' := (Fl.ltF_iff _ _).mp hlt
          refine ⟨?_, Or.inr ⟨i, a, ρ, rfl, hi, ha, hkth⟩⟩
          rintro p (hp | hp) r hr
          · exact (hlt'.1.le).trans (hb.1 p hp r hr)
          · rw [Set.mem_singleton_iff] at hp
            subst hp
            exact (Fl.fin_le_fin _ _).mpr (hkth.unique hr).le
        · rw [if_neg hlt]
          refine ⟨?_, hb.2⟩
          rintro p (hp | hp) r hr
          · exact hb.1 p hp r hr
          · rw [Set.mem_singleton_iff] at hp
            subst hp
            rw [← hkth.unique hr]
            rw [Fl.ltF_iff] at hlt
            by_contra hc
            exact hlt ⟨not_le.mp hc, hb.not_nan⟩
    simp only [e1, c1, i1, bind, Except.bind]
    obtain ⟨gens2, best2, j1, j2, j3⟩ := ih (fun a ha => has a (by simp [ha])) gens1 best1 _ c2 i2
    refine ⟨gens2, best2, j1, j2, ?_⟩
    have : (S ∪ {(i, a)} ∪ {p | p.1 = i ∧ p.2 ∈ as} : Set (Nat × Nat)) = S ∪ {p | p.1 = i ∧ p.2 ∈ a :: as} := by
      ext ⟨x, y⟩
      simp only [Set.mem_union, Set.mem_singleton_iff, Set.mem_ofPred_eq, List.mem_cons, Prod.mk.injEq]
      tauto
    rw [← this]; exact j3

theorem subsetSeries_ok {gops : GenOps G K} {len : Nat → Nat} {B : Nat → Nat → Nat → K} {Inv : Nat → G → Prop}
    (calcMP : Nat → Nat → List (Fl K) → List (Fl K) → Except PyErr (List (Fl K))) (argsort : List (Fl K) → List Nat)
    (hsort : ∀ l, (argsort l).Perm (List.range l.length)) (series : List (List (Fl K))) (m : Int) (ignored : Nat) (hig : ignored + 1 < series.length)
    (others : Nat → List Nat) (hoth : ∀ i < series.length, ∀ o ∈ others i, o < series.length)
    (hlen : ∀ (i : Nat) (s : List (Fl K)), series[i]? = some s → len i = ((s.length : Int) - m + 1).toNat)
    (hcalc : ∀ (t i j : Nat) (s q : List (Fl K)), series[i]? = some s → series[j]? = some q → i ≠ j → calcMP i t s q = .ok ((List.range (len i)).map fun a => .fin (B i a j)))
    (H : ∀ (i : Nat) (s : List (Fl K)), series[i]? = some s → ∀ a : Nat, a < len i → Probes gops series.length Inv (pySlice s a (a + m)) (B i a))
    (is : List Nat) (his : ∀ i ∈ is, i < series.length) :
    let Rd : Nat → Nat → K → Prop := fun i a r => IsKthLargest (ignored + 1) ((consulted series.length ignored (others i) i).map (B i a)) r
    ∀ (gens : List G) (best : CMResult K) (S : Set (Nat × Nat)), GenList series.length Inv gens → Best series.length len Rd best S →
      ∃ best', subsetSeries gops calcMP argsort series m ignored others gens best is = .ok best' ∧
        Best series.length len Rd best' (S ∪ {p | p.1 ∈ is ∧ p.2 < len p.1}) := by
  intro Rd
  induction is with
  | nil =>
    intro gens best S hg hb
    refine ⟨best, rfl, ?_⟩
    have : ({p | p.1 ∈ ([] : List Nat) ∧ p.2 < len p.1} : Set (Nat × Nat)) = ∅ := by ext; simp
    rw [this, Set.union_empty]; exact hb
  | cons i is ih =>
    intro gens best S hg hb
    have hi := his i (by simp)
    obtain ⟨s, hs⟩ : ∃ s, series[i]? = some s := ⟨_, List.getElem?_eq_getElem hi⟩
    set mps : List (List (Fl K)) := (List.range (ignored + 1)).map fun t => (List.range (len i)).map fun a => Fl.fin (B i a ((i + 1 + t) % series.length))
      with hmps
    have hnext : nextMps (calcMP i) series ignored i s (len i) = .ok mps := by
      unfold nextMps
      rw [mapM_ok_iff, hmps, List.forall₂_map_right_iff]
      refine List.forall₂_same.mpr fun t ht => ?_
      rw [List.mem_range] at ht
      have hj : (i + 1 + t) % series.length < series.length := Nat.mod_lt _ (by omega)
      have hne : i ≠ (i + 1 + t) % series.length := by
        by_cases h : i + 1 + t < series.length
        · rw [Nat.mod_eq_of_lt h]; omega
        · rw [Nat.mod_eq_sub_mod (by omega), Nat.mod_eq_of_lt (by omega)]; omega
      have hq := List.getElem?_eq_getElem hj
      simp only [(pyGet_nat_ok series _ _).mpr hq, hcalc t i _ s _ hs hq hne, bind, Except.bind]
      exact npRow_self _ _ (by simp)
    obtain ⟨mins, k1, k2⟩ : ∃ mins, columnMins mps (len i) = .ok mins ∧ mins.length = len i := by
      unfold columnMins
      obtain ⟨ys, y1, y2, -⟩ := mapM_total (fun c : Nat => (do npMin (← mps.mapM (pyGet · (c : Int))) : Except PyErr (Fl K))) (fun _ _ => True) (List.range (len i)) (by
        intro a ha
        rw [List.mem_range] at ha
        have e1 : mps.mapM (pyGet · (a : Int)) = .ok (((List.range (ignored + 1)).map fun t => B i a ((i + 1 + t) % series.length)).map Fl.fin) := by
          rw [mapM_ok_iff, List.map_map, hmps, List.forall₂_map_left_iff, List.forall₂_map_right_iff]
          refine List.forall₂_same.mpr fun t _ => ?_
          rw [pyGet_nat_ok, List.getElem?_map, List.getElem?_range ha]
          rfl
        obtain ⟨r, r1, -⟩ := npMin_fin ((List.range (ignored + 1)).map fun t => B i a ((i + 1 + t) % series.length)) (by simp)
        exact ⟨_, by simp only [e1, bind, Except.bind]; exact r1, trivial⟩)
      exact ⟨ys, y1, by simpa using y2⟩
    have hmem : ∀ a, a ∈ argsort mins ↔ a < len i := by
      intro a; rw [(hsort mins).mem_iff, List.mem_range, k2]
    obtain ⟨gens1, best1, c1, c2, c3⟩ := subsetCandidates_ok (B := B) ignored others i (hoth i hi) hi s m (H i s hs) (argsort mins)
      (fun a ha => (hmem a).mp ha) gens best S hg hb
    rw [subsetSeries]
    simp only [(pyGet_nat_ok series i _).mpr hs, ← hlen i s hs, hnext, k1, bind, Except.bind]
    simp only [hmps, c1]
    obtain ⟨best2, j1, j2⟩ := ih (fun i hi => his i (by simp [hi])) gens1 best1 _ c2 c3
    refine ⟨best2, j1, ?_⟩
    have : (S ∪ {p | p.1 = i ∧ p.2 ∈ argsort mins} ∪ {p | p.1 ∈ is ∧ p.2 < len p.1} : Set (Nat × Nat)) =
        S ∪ {p | p.1 ∈ i :: is ∧ p.2 < len p.1} := by
      ext ⟨x, y⟩
      simp only [Set.mem_union, Set.mem_ofPred_eq, List.mem_cons, hmem]
      constructor
      · rintro ((h | ⟨rfl, h⟩) | h)
        · exact Or.inl h
        · exact Or.inr ⟨Or.inl rfl, h⟩
        · exact Or.inr ⟨Or.inr h.1, h.2⟩
      · rintro (h | ⟨rfl | h, h'⟩)
        · exact Or.inl (Or.inl h)
        · exact Or.inl (Or.inr ⟨rfl, h'⟩)
        · exact Or.inr ⟨h, h'⟩
    rw [← this]; exact j2

end Search

end Ostinato
end Verif
