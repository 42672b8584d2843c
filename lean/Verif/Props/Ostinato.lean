import Verif.Model.Ostinato
import Verif.Spec.Ostinato
import Verif.Lemmas.Float
import Verif.Lemmas.Calculator
import Verif.Lemmas.Serves
import Verif.Props.ShiftingProfile
import Verif.Props.DistancedThreshold

/-!
# C55: `find_consensus_motif`
-/

namespace Verif
open Spec
namespace Ostinato

section Search
variable {G K : Type} [LinearOrder K]

/-- Asking the generator of pair `i, j` for column `a` gives a column with minimum `B i a j`. -/
def Answers (ask : G → Int → Except PyErr (G × List (Fl K))) (n : Nat) (len : Nat → Nat) (B : Nat → Nat → Nat → K)
    (Inv : Nat → Nat → G → Prop) : Prop :=
  ∀ i j, i < n → j < n → i ≠ j → ∀ g, Inv i j g → ∀ a : Nat, a < len i → ∃ g' d, ask g (a : Int) = .ok (g', d) ∧ Inv i j g' ∧
    npMin d = .ok (.fin (B i a j))

/-- All generators are there and in a good state. -/
def GensOk (n : Nat) (Inv : Nat → Nat → G → Prop) (gens : Gens G) : Prop :=
  ∀ i j, i < n → j < n → i ≠ j → ∃ g, gens i j = some g ∧ Inv i j g

/-- The radius of a candidate. -/
def Rad (n : Nat) (B : Nat → Nat → Nat → K) (i a : Nat) (r : K) : Prop := IsGreatest (B i a '' {j | j < n ∧ j ≠ i}) r

theorem Rad.exists {n : Nat} (hn : 2 ≤ n) (B : Nat → Nat → Nat → K) (i a : Nat) : ∃ r, Rad n B i a r := by
  have hfin : (B i a '' {j | j < n ∧ j ≠ i}).Finite := (Set.Finite.subset (Set.finite_lt_nat n) fun j hj => hj.1).image _
  have hne : (B i a '' {j | j < n ∧ j ≠ i}).Nonempty := by
    refine Set.Nonempty.image _ ?_
    by_cases h : i = 0
    · exact ⟨1, by omega, by omega⟩
    · exact ⟨0, by omega, by omega⟩
  obtain ⟨r, h1, h2⟩ := hfin.exists_maximal hne
  exact ⟨r, h1, fun x hx => (le_total x r).elim id fun h => h2 hx h⟩

theorem GensOk.set {n : Nat} {Inv : Nat → Nat → G → Prop} {gens : Gens G} (h : GensOk n Inv gens) (i j : Nat) (g : G) (hg : Inv i j g) :
    GensOk n Inv (gens.set i j g) := by
  intro i' j' hi hj hne
  unfold Gens.set
  by_cases he : i' = i ∧ j' = j
  · rw [if_pos he]; exact ⟨g, rfl, by rw [he.1, he.2]; exact hg⟩
  · rw [if_neg he]; exact h i' j' hi hj hne

theorem pyMax_fin (a b : K) : pyMax (.fin a) (.fin b) = .fin (max a b) := by
  unfold pyMax
  by_cases h : a < b
  · rw [if_pos ((Fl.ltF_iff _ _).mpr (by simpa using h)), max_eq_right h.le]
  · rw [if_neg (fun h' => h (by simpa using (Fl.ltF_iff _ _).mp h')), max_eq_left (not_lt.mp h)]

theorem profile_ok {ask : G → Int → Except PyErr (G × List (Fl K))} {n : Nat} {len : Nat → Nat} {B : Nat → Nat → Nat → K}
    {Inv : Nat → Nat → G → Prop} (H : Answers ask n len B Inv) (i j : Nat) (hi : i < n) (hj : j < n) (hne : i ≠ j) (cs : List Nat)
    (hcs : ∀ c ∈ cs, c < len i) (g : G) (hg : Inv i j g) :
    ∃ g', profile ask g cs = .ok (g', cs.map fun c => .fin (B i c j)) ∧ Inv i j g' := by
  induction cs generalizing g with
  | nil => exact ⟨g, rfl, hg⟩
  | cons c cs ih =>
    obtain ⟨g1, d, h1, h2, h3⟩ := H i j hi hj hne g hg c (hcs c (by simp))
    obtain ⟨g2, h4, h5⟩ := ih (fun c hc => hcs c (by simp [hc])) g1 h2
    exact ⟨g2, by simp only [profile, h1, h3, h4, bind, Except.bind, pure, Except.pure, List.map_cons], h5⟩

theorem checkOthers_ok {ask : G → Int → Except PyErr (G × List (Fl K))} {n : Nat} {len : Nat → Nat} {B : Nat → Nat → Nat → K}
    {Inv : Nat → Nat → G → Prop} (H : Answers ask n len B Inv) (i next a : Nat) (hi : i < n) (ha : a < len i) (best : Fl K)
    (js : List Nat) (hjs : ∀ j ∈ js, j < n) (gens : Gens G) (hg : GensOk n Inv gens) (T : Set Nat) (hT : T ⊆ {j | j < n ∧ j ≠ i})
    (ρ : K) (hρ : IsGreatest (B i a '' T) ρ) :
    ∃ gens' ρ' ab, checkOthers ask i next a best gens (.fin ρ) js = .ok (gens', .fin ρ', ab) ∧ GensOk n Inv gens' ∧
      (ab = true → best ≤ .fin ρ' ∧ ∀ r, Rad n B i a r → ρ' ≤ r) ∧
      (ab = false → IsGreatest (B i a '' (T ∪ {j | j ∈ js ∧ j ≠ i ∧ j ≠ next})) ρ') := by
  induction js generalizing gens T ρ with
  | nil =>
    refine ⟨gens, ρ, false, rfl, hg, by simp, fun _ => ?_⟩
    have : ({j | j ∈ ([] : List Nat) ∧ j ≠ i ∧ j ≠ next} : Set Nat) = ∅ := by ext; simp
    rw [this, Set.union_empty]; exact hρ
  | cons j js ih =>
    rw [checkOthers]
    by_cases hj : j = i ∨ j = next
    · rw [if_pos hj]
      obtain ⟨gens', ρ', ab, h1, h2, h3, h4⟩ := ih (fun j hj => hjs j (by simp [hj])) gens hg T hT ρ hρ
      refine ⟨gens', ρ', ab, h1, h2, h3, fun hab => ?_⟩
      have : ({k | k ∈ j :: js ∧ k ≠ i ∧ k ≠ next} : Set Nat) = {k | k ∈ js ∧ k ≠ i ∧ k ≠ next} := by
        ext k
        simp only [List.mem_cons, Set.mem_ofPred_eq]
        constructor
        · rintro ⟨h | h, h5, h6⟩
          · subst h; exact absurd hj (by simp [h5, h6])
          · exact ⟨h, h5, h6⟩
        · rintro ⟨h, h5⟩; exact ⟨Or.inr h, h5⟩
      rw [this]; exact h4 hab
    · rw [if_neg hj]
      rw [not_or] at hj
      have hjn := hjs j (by simp)
      obtain ⟨g, hg1, hg2⟩ := hg i j hi hjn (Ne.symm hj.1)
      obtain ⟨g1, d, h1, h2, h3⟩ := H i j hi hjn (Ne.symm hj.1) g hg2 a ha
      simp only [Gens.get, hg1, h1, h3, bind, Except.bind, pyMax_fin]
      have hT' : insert j T ⊆ {j | j < n ∧ j ≠ i} := by
        intro k hk
        rcases hk with hk | hk
        · rw [hk]; exact ⟨hjn, hj.1⟩
        · exact hT hk
      have hρ' : IsGreatest (B i a '' insert j T) (max ρ (B i a j)) := by
        rw [Set.image_insert_eq, max_comm]; exact hρ.insert _
      by_cases hb : best.leF (.fin (max ρ (B i a j))) = true
      · rw [if_pos hb]
        refine ⟨_, _, true, rfl, hg.set i j g1 h2, fun _ => ⟨((Fl.leF_iff _ _).mp hb).1, fun r hr => ?_⟩, by simp⟩
        exact hr.2 (Set.image_mono hT' hρ'.1)
      · rw [if_neg hb]
        obtain ⟨gens', ρ', ab, h5, h6, h7, h8⟩ := ih (fun j hj => hjs j (by simp [hj])) (gens.set i j g1) (hg.set i j g1 h2)
          (insert j T) hT' _ hρ'
        refine ⟨gens', ρ', ab, h5, h6, h7, fun hab => ?_⟩
        have : insert j T ∪ {k | k ∈ js ∧ k ≠ i ∧ k ≠ next} = T ∪ {k | k ∈ j :: js ∧ k ≠ i ∧ k ≠ next} := by
          ext k
          simp only [List.mem_cons, Set.mem_ofPred_eq, Set.mem_union, Set.mem_insert_iff]
          constructor
          · rintro ((h | h) | h)
            · subst h; exact Or.inr ⟨Or.inl rfl, hj.1, hj.2⟩
            · exact Or.inl h
            · exact Or.inr ⟨Or.inr h.1, h.2⟩
          · rintro (h | ⟨h | h, h9⟩)
            · exact Or.inl (Or.inr h)
            · exact Or.inl (Or.inl h)
            · exact Or.inr ⟨h, h9⟩
        rw [← this]; exact h8 hab

/-- What is known about the best result once the candidates in `S` have been dealt with. -/
def BestInv (n : Nat) (len : Nat → Nat) (B : Nat → Nat → Nat → K) (best : CMResult K) (S : Set (Nat × Nat)) : Prop :=
  (∀ p ∈ S, ∀ r, Rad n B p.1 p.2 r → best.radius ≤ .fin r) ∧
  (best = ⟨.pinf, -1, -1⟩ ∨ ∃ (i a : Nat) (r : K), best = ⟨.fin r, i, a⟩ ∧ i < n ∧ a < len i ∧ Rad n B i a r)

theorem BestInv.not_nan {n : Nat} {len : Nat → Nat} {B : Nat → Nat → Nat → K} {best : CMResult K} {S : Set (Nat × Nat)}
    (h : BestInv n len B best S) : best.radius ≠ .nan := by
  rcases h.2 with h | ⟨i, a, r, h, -⟩ <;> rw [h] <;> simp

theorem searchCandidates_ok {ask : G → Int → Except PyErr (G × List (Fl K))} {n : Nat} {len : Nat → Nat} {B : Nat → Nat → Nat → K}
    {Inv : Nat → Nat → G → Prop} (H : Answers ask n len B Inv) (i next : Nat) (hi : i < n) (hnx : next < n) (hne : next ≠ i)
    (mp : List (Fl K)) (hmp : ∀ a < len i, mp[a]? = some (.fin (B i a next))) (as : List Nat) (has : ∀ a ∈ as, a < len i)
    (hsort : as.Pairwise fun x y => B i x next ≤ B i y next) (gens : Gens G) (hg : GensOk n Inv gens) (best : CMResult K)
    (S : Set (Nat × Nat)) (hb : BestInv n len B best S) :
    ∃ gens' best', searchCandidates ask n i next mp gens best as = .ok (gens', best') ∧ GensOk n Inv gens' ∧
      BestInv n len B best' (S ∪ {p | p.1 = i ∧ p.2 ∈ as}) := by
  induction as generalizing gens best S with
  | nil =>
    refine ⟨gens, best, rfl, hg, ?_⟩
    have : ({p | p.1 = i ∧ p.2 ∈ ([] : List Nat)} : Set (Nat × Nat)) = ∅ := by ext; simp
    rw [this, Set.union_empty]; exact hb
  | cons a as ih =>
    have ha := has a (by simp)
    have hget : pyGet mp (a : Int) = .ok (.fin (B i a next)) := (pyGet_nat_ok mp a _).mpr (hmp a ha)
    rw [searchCandidates]
    simp only [hget, bind, Except.bind]
    by_cases hle : best.radius.leF (.fin (B i a next)) = true
    · rw [if_pos hle]
      refine ⟨gens, best, rfl, hg, ?_, hb.2⟩
      rintro ⟨i', a'⟩ (hp | ⟨rfl, hp⟩) r hr
      · exact hb.1 _ hp r hr
      · refine ((Fl.leF_iff _ _).mp hle).1.trans ?_
        have h1 : B i' a next ≤ B i' a' next := by
          rcases List.mem_cons.mp hp with h | h
          · exact le_of_eq (by rw [show a' = a from h])
          · exact (List.pairwise_cons.mp hsort).1 _ h
        exact (Fl.fin_le_fin _ _).mpr (h1.trans (hr.2 ⟨next, ⟨hnx, hne⟩, rfl⟩))
    · rw [if_neg hle]
      obtain ⟨gens1, ρ, ab, h1, h2, h3, h4⟩ := checkOthers_ok H i next a hi ha best.radius (List.range n) (by simp) gens hg {next}
        (by rintro k rfl; exact ⟨hnx, hne⟩) (B i a next) (by rw [Set.image_singleton]; exact isGreatest_singleton)
      simp only [h1]
      have hset : ({next} ∪ {j | j ∈ List.range n ∧ j ≠ i ∧ j ≠ next} : Set Nat) = {j | j < n ∧ j ≠ i} := by
        ext k
        simp only [Set.mem_union, Set.mem_singleton_iff, Set.mem_ofPred_eq, List.mem_range]
        constructor
        · rintro (rfl | ⟨h5, h6, -⟩)
          · exact ⟨hnx, hne⟩
          · exact ⟨h5, h6⟩
        · rintro ⟨h5, h6⟩
          by_cases h : k = next
          · exact Or.inl h
          · exact Or.inr ⟨h5, h6, h⟩
      rw [hset] at h4
      have hb' : BestInv n len B (improve best (.fin ρ) ab i a) (S ∪ {(i, a)}) := by
        unfold improve
        by_cases himp : ab = false ∧ (Fl.fin ρ).ltF best.radius = true
        · rw [if_pos himp]
          have hlt := ((Fl.ltF_iff _ _).mp himp.2)
          refine ⟨?_, Or.inr ⟨i, a, ρ, rfl, hi, ha, h4 himp.1⟩⟩
          rintro p (hp | hp) r hr
          · exact (hlt.1.le).trans (hb.1 p hp r hr)
          · rw [Set.mem_singleton_iff] at hp
            subst hp
            exact (Fl.fin_le_fin _ _).mpr ((h4 himp.1).unique hr).le
        · rw [if_neg himp]
          refine ⟨?_, hb.2⟩
          rintro p (hp | hp) r hr
          · exact hb.1 p hp r hr
          · rw [Set.mem_singleton_iff] at hp
            subst hp
            cases ab with
            | true => exact (h3 rfl).1.trans ((Fl.fin_le_fin _ _).mpr ((h3 rfl).2 r hr))
            | false =>
              rw [← (h4 rfl).unique hr]
              have := fun h => himp ⟨rfl, h⟩
              rw [Fl.ltF_iff] at this
              by_contra hc
              exact this ⟨not_le.mp hc, hb.not_nan⟩
      obtain ⟨gens2, best2, h5, h6, h7⟩ := ih (fun a ha => has a (by simp [ha])) (List.pairwise_cons.mp hsort).2 gens1 h2 _ _ hb'
      refine ⟨gens2, best2, h5, h6, ?_⟩
      have : (S ∪ {(i, a)} ∪ {p | p.1 = i ∧ p.2 ∈ as} : Set (Nat × Nat)) = S ∪ {p | p.1 = i ∧ p.2 ∈ a :: as} := by
        ext ⟨x, y⟩
        simp only [Set.mem_union, Set.mem_singleton_iff, Set.mem_ofPred_eq, List.mem_cons, Prod.mk.injEq]
        tauto
      rw [← this]; exact h7

theorem searchSeries_ok {ask : G → Int → Except PyErr (G × List (Fl K))} {len : Nat → Nat} {B : Nat → Nat → Nat → K}
    {Inv : Nat → Nat → G → Prop} (argsort : List (Fl K) → List Nat) (hsort : ∀ l, IsArgsort l (argsort l)) (series : List (List (Fl K)))
    (m : Int) (H : Answers ask series.length len B Inv) (hn : 2 ≤ series.length)
    (hlen : ∀ (i : Nat) (s : List (Fl K)), series[i]? = some s → len i = ((s.length : Int) - m + 1).toNat) (is : List Nat) (his : ∀ i ∈ is, i < series.length)
    (gens : Gens G) (hg : GensOk series.length Inv gens) (best : CMResult K) (S : Set (Nat × Nat)) (hb : BestInv series.length len B best S) :
    ∃ best', searchSeries ask argsort series m gens best is = .ok best' ∧
      BestInv series.length len B best' (S ∪ {p | p.1 ∈ is ∧ p.2 < len p.1}) := by
  induction is generalizing gens best S with
  | nil =>
    refine ⟨best, rfl, ?_⟩
    have : ({p | p.1 ∈ ([] : List Nat) ∧ p.2 < len p.1} : Set (Nat × Nat)) = ∅ := by ext; simp
    rw [this, Set.union_empty]; exact hb
  | cons i is ih =>
    have hi := his i (by simp)
    have hnx : (i + 1) % series.length < series.length := Nat.mod_lt _ (by omega)
    have hne : (i + 1) % series.length ≠ i := by
      by_cases h : i + 1 < series.length
      · rw [Nat.mod_eq_of_lt h]; omega
      · rw [show i + 1 = series.length by omega, Nat.mod_self]; omega
    obtain ⟨s, hs⟩ : ∃ s, series[i]? = some s := ⟨_, List.getElem?_eq_getElem hi⟩
    obtain ⟨g, hg1, hg2⟩ := hg i _ hi hnx (Ne.symm hne)
    obtain ⟨g', h1, h2⟩ := profile_ok H i _ hi hnx (Ne.symm hne) (List.range (len i)) (by simp) g hg2
    rw [searchSeries]
    simp only [(pyGet_nat_ok series i _).mpr hs, Gens.get, hg1, ← hlen i s hs, h1, bind, Except.bind]
    set mp : List (Fl K) := (List.range (len i)).map fun c => Fl.fin (B i c ((i + 1) % series.length)) with hmp
    have hat : ∀ a < len i, mp[a]? = some (.fin (B i a ((i + 1) % series.length))) := by
      intro a ha; rw [hmp, List.getElem?_map, List.getElem?_range ha]; rfl
    have hml : mp.length = len i := by simp [hmp]
    obtain ⟨p1, p2⟩ := hsort mp
    have hmem : ∀ a, a ∈ argsort mp ↔ a < len i := by
      intro a; rw [p1.mem_iff, List.mem_range, hml]
    obtain ⟨gens1, best1, h3, h4, h5⟩ := searchCandidates_ok H i _ hi hnx hne mp hat (argsort mp) (fun a ha => (hmem a).mp ha)
      (p2.imp_of_mem fun {x y} hx hy h => (Fl.fin_le_fin _ _).mp (h _ _ (hat x ((hmem x).mp hx)) (hat y ((hmem y).mp hy))))
      _ (hg.set i _ g' h2) best S hb
    simp only [h3]
    obtain ⟨best2, h6, h7⟩ := ih (fun i hi => his i (by simp [hi])) gens1 h4 best1 _ h5
    refine ⟨best2, h6, ?_⟩
    have : (S ∪ {p | p.1 = i ∧ p.2 ∈ argsort mp} ∪ {p | p.1 ∈ is ∧ p.2 < len p.1} : Set (Nat × Nat)) =
        S ∪ {p | p.1 ∈ i :: is ∧ p.2 < len p.1} := by
      ext ⟨x, y⟩
      simp only [Set.mem_union, Set.mem_ofPred_eq, List.mem_cons, hmem]
      constructor
      · rintro ((h | ⟨rfl, h⟩) | h)
        · exact Or.inl h
        · exact Or.inr ⟨Or.inl rfl, h⟩
        · exact Or.inr ⟨Or.inr h.1, h.2⟩
      · rintro (h | ⟨rfl | h, h'⟩)
        · exact Or.inl (Or.inl h)
        · exact Or.inl (Or.inr ⟨rfl, h'⟩)
        · exact Or.inr ⟨h, h'⟩
    rw [← this]; exact h7

end Search

/-! ### The generators -/

open ZN

theorem stats_ok (mem : ZN.Mem) (hmem : mem.Ok) (m : Nat) (hm : 0 < m) (s : List ℝ) (hs : m ≤ s.length) :
    ∃ st, stats mem m (s.map .fin) = .ok st ∧ StatsOk st s.length m s := by
  have hl : (windows m s).length = s.length + 1 - m := windows_length m s
  have hne : ∀ {α : Type} (f : List ℝ → α), (windows m s).map f ≠ [] := by
    intro α f h
    have := congrArg List.length h
    rw [List.length_map, hl, List.length_nil] at this; omega
  obtain ⟨a, a1, a2, a3⟩ := RB.init_good_scale 1 le_rfl (by norm_num) _ (hne npMean) false (mem.real _) (hmem.2.1 _)
  obtain ⟨b, b1, b2, b3⟩ := RB.init_good_scale 1 le_rfl (by norm_num) _ (hne npStd) false (mem.real _) (hmem.2.1 _)
  obtain ⟨c, c1, c2, c3⟩ := RB.init_good_scale 1 le_rfl (by norm_num) _ (hne fun w => decide (npStd w > flat)) false (mem.bool _) (hmem.2.2 _)
  rw [List.length_map, hl] at a2 b2 c2
  refine ⟨⟨a, b, c⟩, ?_, ⟨a2, b2, c2, a3, b3, c3⟩⟩
  unfold stats
  simp only [List.length_map] at a1 b1 c1
  simp only [slidingMeanStd_ok s m hm hs, bind, Except.bind, pure, Except.pure, List.length_map, a1, b1, List.map_map, Function.comp_def, c1]

theorem pairGen_ok (mem : ZN.Mem) (hmem : mem.Ok) (m : Nat) (hm : 0 < m) (s q : List ℝ) (hs : m ≤ s.length) (hq : m ≤ q.length) (st1 st2 : ZStats)
    (h1 : StatsOk st1 s.length m s) (h2 : StatsOk st2 q.length m q) :
    ∃ z, pairGen mem m (s.map .fin) (q.map .fin) st1 st2 = .ok z ∧ z.Base m 0 s.length (some q.length) s q ∧
      z.CacheOk m s.length ⟨s, q, none⟩ := by
  have hne : ∀ x : List ℝ, m ≤ x.length → x.map Fl.fin ≠ [] := by
    intro x hx h
    have := congrArg List.length h
    rw [List.length_map, List.length_nil] at this; omega
  obtain ⟨a, a1, a2, a3⟩ := RB.init_good_scale 1 le_rfl (by norm_num) _ (hne s hs) false (mem.fl _) (hmem.1 _)
  obtain ⟨b, b1, b2, b3⟩ := RB.init_good_scale 1 le_rfl (by norm_num) _ (hne q hq) false (mem.fl _) (hmem.1 _)
  rw [List.length_map] at a2 b2
  unfold pairGen
  simp only [a1, b1, bind, Except.bind, pure, Except.pure]
  refine ⟨_, rfl, ⟨⟨rfl, hm, hs, a2, a3, b, rfl, b2, b3⟩, rfl, h1, hq, st2, rfl, h2⟩, noCache _ m _ s q rfl rfl⟩

theorem mapM_total {α β : Type} (f : α → Except PyErr β) (P : α → β → Prop) (l : List α) (h : ∀ x ∈ l, ∃ y, f x = .ok y ∧ P x y) :
    ∃ ys, l.mapM f = .ok ys ∧ ys.length = l.length ∧ ∀ (i : Nat) x, l[i]? = some x → ∃ y, ys[i]? = some y ∧ P x y := by
  induction l with
  | nil => exact ⟨[], rfl, rfl, by simp⟩
  | cons x l ih =>
    obtain ⟨y, h1, h2⟩ := h x (by simp)
    obtain ⟨ys, h3, h4, h5⟩ := ih fun x hx => h x (by simp [hx])
    refine ⟨y :: ys, by simp only [List.mapM_cons, h1, h3, bind, Except.bind, pure, Except.pure], by simp [h4], ?_⟩
    intro i z hz
    cases i with
    | zero => cases hz; exact ⟨y, rfl, h2⟩
    | succ i => exact h5 i z hz

/-- The state of the generator of pair `i, j`: windows filled with the two series, column cache in step. -/
def PairInv (m : Nat) (series : List (List ℝ)) (i j : Nat) (z : ZN) : Prop :=
  ∃ s q last, series[i]? = some s ∧ series[j]? = some q ∧ z.Base m 0 s.length (some q.length) s q ∧ z.CacheOk m s.length ⟨s, q, last⟩ ∧
    ∀ t e, last = some (t, e) → e = true

theorem pairGens_ok (mem : ZN.Mem) (hmem : mem.Ok) (m : Nat) (hm : 0 < m) (series : List (List ℝ)) (hs : ∀ s ∈ series, m ≤ s.length)
    (sts : List ZStats) (hsts : ∀ (i : Nat) s, series[i]? = some s → ∃ st, sts[i]? = some st ∧ StatsOk st s.length m s) :
    ∃ gens, pairGens mem m (series.map (·.map .fin)) sts = .ok gens ∧ GensOk series.length (PairInv m series) gens := by
  unfold pairGens
  obtain ⟨rows, h1, h2, h3⟩ := mapM_total (fun i : Nat => (List.range (series.map (·.map Fl.fin)).length).mapM fun j : Nat =>
      (if i = j then .ok none
      else do
        let s1 ← pyGet (series.map (·.map Fl.fin)) i
        let s2 ← pyGet (series.map (·.map Fl.fin)) j
        let st1 ← pyGet sts i
        let st2 ← pyGet sts j
        let g ← pairGen mem m s1 s2 st1 st2
        return some g : Except PyErr (Option ZN)))
    (fun i r => ∀ j < series.length, i ≠ j → ∃ g, r[j]? = some (some g) ∧ PairInv m series i j g) (List.range (series.map (·.map Fl.fin)).length) (by
      intro i hi
      rw [List.mem_range, List.length_map] at hi
      obtain ⟨r, e1, e2, e3⟩ := mapM_total (fun j : Nat =>
          (if i = j then .ok none
          else do
            let s1 ← pyGet (series.map (·.map Fl.fin)) i
            let s2 ← pyGet (series.map (·.map Fl.fin)) j
            let st1 ← pyGet sts i
            let st2 ← pyGet sts j
            let g ← pairGen mem m s1 s2 st1 st2
            return some g : Except PyErr (Option ZN)))
        (fun j g => i ≠ j → ∃ g', g = some g' ∧ PairInv m series i j g') (List.range (series.map (·.map Fl.fin)).length) (by
          intro j hj
          rw [List.mem_range, List.length_map] at hj
          by_cases hij : i = j
          · exact ⟨none, by rw [if_pos hij], fun h => absurd hij h⟩
          · obtain ⟨s, hs1⟩ : ∃ s, series[i]? = some s := ⟨_, List.getElem?_eq_getElem hi⟩
            obtain ⟨q, hq1⟩ : ∃ s, series[j]? = some s := ⟨_, List.getElem?_eq_getElem hj⟩
            obtain ⟨st1, t1, t2⟩ := hsts i s hs1
            obtain ⟨st2, t3, t4⟩ := hsts j q hq1
            obtain ⟨z, z1, z2, z3⟩ := pairGen_ok mem hmem m hm s q (hs s (List.mem_of_getElem? hs1)) (hs q (List.mem_of_getElem? hq1)) st1 st2 t2 t4
            refine ⟨some z, ?_, fun _ => ⟨z, rfl, s, q, none, hs1, hq1, z2, z3, by simp⟩⟩
            have g1 : pyGet (series.map (·.map Fl.fin)) (i : Int) = .ok (s.map .fin) := (pyGet_nat_ok _ _ _).mpr (by rw [List.getElem?_map, hs1]; rfl)
            have g2 : pyGet (series.map (·.map Fl.fin)) (j : Int) = .ok (q.map .fin) := (pyGet_nat_ok _ _ _).mpr (by rw [List.getElem?_map, hq1]; rfl)
            simp only [if_neg hij, g1, g2, (pyGet_nat_ok _ _ _).mpr t1, (pyGet_nat_ok _ _ _).mpr t3, z1, bind, Except.bind, pure, Except.pure])
      refine ⟨r, e1, fun j hj hij => ?_⟩
      obtain ⟨y, y1, y2⟩ := e3 j j (by rw [List.length_map, List.getElem?_range hj])
      obtain ⟨g, rfl, hg⟩ := y2 hij
      exact ⟨g, y1, hg⟩)
  rw [h1]
  refine ⟨_, rfl, ?_⟩
  intro i j hi hj hij
  obtain ⟨r, r1, r2⟩ := h3 i i (by rw [List.length_map, List.getElem?_range hi])
  obtain ⟨g, g1, g2⟩ := r2 j hj hij
  exact ⟨g, by simp [r1, g1], g2⟩

open Classical in
/-- Distance of a subsequence to its best match in another series. -/
noncomputable def bestMatch (m : Nat) (series : List (List ℝ)) (i a j : Nat) : ℝ :=
  if h : ∃ x, IsMatch m series i a j x then h.choose else 0

theorem _root_.Verif.Spec.IsMatch.unique {m : Nat} {series : List (List ℝ)} {i a j : Nat} {x y : ℝ} (h1 : IsMatch m series i a j x) (h2 : IsMatch m series i a j y) :
    x = y := by
  obtain ⟨s, q, a1, a2, a3⟩ := h1
  obtain ⟨s', q', b1, b2, b3⟩ := h2
  rw [a1] at b1; cases b1
  rw [a2] at b2; cases b2
  exact a3.unique b3

theorem bestMatch_eq {m : Nat} {series : List (List ℝ)} {i a j : Nat} {x : ℝ} (h : IsMatch m series i a j x) : bestMatch m series i a j = x := by
  unfold bestMatch
  rw [dif_pos ⟨x, h⟩]
  exact IsMatch.unique (Exists.choose_spec (⟨x, h⟩ : ∃ x, IsMatch m series i a j x)) h

/-- `np.min` of a non-empty finite column is the least value. -/
theorem npMin_range (n : Nat) (hn : 0 < n) (f : Nat → ℝ) :
    ∃ x, npMin ((List.range n).map fun b => Fl.fin (f b)) = .ok (.fin x) ∧ IsLeast {d | ∃ b, b < n ∧ d = f b} x := by
  obtain ⟨x, h1, h2, -, h4⟩ := npMin_spec ((List.range n).map fun b => Fl.fin (f b)) (by
    intro h
    have := congrArg List.length h
    simp at this; omega)
  obtain ⟨b, hb, rfl⟩ := List.mem_map.mp h2
  refine ⟨f b, h1, ⟨b, List.mem_range.mp hb, rfl⟩, ?_⟩
  rintro d ⟨b', hb', rfl⟩
  exact (Fl.fin_le_fin _ _).mp (h4 (by simp) _ (List.mem_map.mpr ⟨b', List.mem_range.mpr hb', rfl⟩))

theorem isMatch_exists (m : Nat) (series : List (List ℝ)) (hs : ∀ s ∈ series, m ≤ s.length) (i a j : Nat) (hi : i < series.length) (hj : j < series.length) :
    ∃ x, IsMatch m series i a j x := by
  obtain ⟨x, -, h⟩ := npMin_range (series[j].length + 1 - m) (by have := hs _ (List.getElem_mem hj); omega)
    (fun b => zdist m 0 (seqOf series[i]) (seqOf series[j]) b a)
  refine ⟨x, series[i], series[j], List.getElem?_eq_getElem hi, List.getElem?_eq_getElem hj, ?_⟩
  have : {d | ∃ b, b + m ≤ series[j].length ∧ d = zdist m 0 (seqOf series[i]) (seqOf series[j]) b a} =
      {d | ∃ b, b < series[j].length + 1 - m ∧ d = zdist m 0 (seqOf series[i]) (seqOf series[j]) b a} := by
    ext d
    have := hs _ (List.getElem_mem hj)
    exact exists_congr fun b => and_congr_left fun _ => by omega
  rw [this]; exact h

theorem rad_iff (m : Nat) (series : List (List ℝ)) (hs : ∀ s ∈ series, m ≤ s.length) (i a : Nat) (hi : i < series.length) (r : ℝ) :
    Rad series.length (bestMatch m series) i a r ↔ IsRadius m series i a r := by
  unfold Rad IsRadius
  have : (bestMatch m series i a '' {j | j < series.length ∧ j ≠ i}) = {x | ∃ j, j < series.length ∧ j ≠ i ∧ IsMatch m series i a j x} := by
    ext x
    constructor
    · rintro ⟨j, ⟨h1, h2⟩, rfl⟩
      obtain ⟨y, hy⟩ := isMatch_exists m series hs i a j hi h1
      exact ⟨j, h1, h2, by rw [bestMatch_eq hy]; exact hy⟩
    · rintro ⟨j, h1, h2, h3⟩
      exact ⟨j, ⟨h1, h2⟩, bestMatch_eq h3⟩
  rw [this]

theorem answers (mem : ZN.Mem) (hmem : mem.Ok) (m : Nat) (series : List (List ℝ)) (hs : ∀ s ∈ series, m ≤ s.length) :
    Answers (ZN.calcColumn mem.fl) series.length (fun i => (((series.getD i []).length : Int) - m + 1).toNat) (bestMatch m series) (PairInv m series) := by
  rintro i j hi hj hij z ⟨s, q, last, h1, h2, h3, h4, h5⟩ a ha
  have hsl := hs s (List.mem_of_getElem? h1)
  have hql := hs q (List.mem_of_getElem? h2)
  simp only [List.getD_eq_getElem?_getD, h1, Option.getD_some] at ha
  obtain ⟨z', c1, c2, c3⟩ := z.calcColumn_ok mem hmem m 0 s.length (some q.length) ⟨s, q, last⟩ a h3 h4 ⟨by simp only; omega, hql⟩
    (fun t e h => Or.inl (h5 t e h))
  obtain ⟨x, x1, x2⟩ := npMin_range (q.length - m + 1) (by omega) (fun b => zdist m 0 (seqOf s) (seqOf q) b a)
  refine ⟨z', _, c1, ⟨s, q, some (a, true), h1, h2, c2, c3, ?_⟩, ?_⟩
  · rintro t e h; cases h; rfl
  · rw [x1]
    congr 2
    refine (bestMatch_eq ⟨s, q, h1, h2, ?_⟩).symm
    have : {d | ∃ b, b + m ≤ q.length ∧ d = zdist m 0 (seqOf s) (seqOf q) b a} =
        {d | ∃ b, b < q.length - m + 1 ∧ d = zdist m 0 (seqOf s) (seqOf q) b a} := by
      ext d
      exact exists_congr fun b => and_congr_left fun _ => by omega
    rw [this]; exact x2

/-- C55: on finite data the call succeeds, the reported subsequence exists and has the reported radius, and no subsequence of any series has a
smaller one. `argsort` sorts, breaking ties in any way. -/
theorem _root_.Verif.C55_optimum (mem : ZN.Mem) (hmem : mem.Ok) (argsort : List (Fl ℝ) → List Nat) (hsort : ∀ l, IsArgsort l (argsort l)) (m : Nat)
    (hm : 3 ≤ m) (series : List (List ℝ)) (hn : 2 ≤ series.length) (hs : ∀ s ∈ series, m ≤ s.length) :
    ∃ (r : ℝ) (i a : Nat), findConsensusMotif mem argsort (series.map (·.map .fin)) m = .ok ⟨.fin r, i, a⟩ ∧ IsSub m series i a ∧
      IsRadius m series i a r ∧ ∀ i' a' r', IsSub m series i' a' → IsRadius m series i' a' r' → r ≤ r' := by
  have hg : guards (series.map (·.map Fl.fin)) (m : Int) = .ok () := by
    unfold guards
    rw [List.length_map, if_neg (by omega), if_neg (by omega), if_neg]
    simp only [List.any_map, List.any_eq_true, Function.comp, List.length_map, decide_eq_true_eq, not_exists, not_and, not_lt]
    intro s h; exact_mod_cast hs s h
  obtain ⟨sts, t1, t2, t3⟩ := mapM_total (stats mem (m : Int)) (fun x st => ∃ s, x = s.map Fl.fin ∧ StatsOk st s.length m s) (series.map (·.map Fl.fin)) (by
    intro x hx
    obtain ⟨s, h1, rfl⟩ := List.mem_map.mp hx
    obtain ⟨st, h2, h3⟩ := stats_ok mem hmem m (by omega) s (hs s h1)
    exact ⟨st, h2, s, rfl, h3⟩)
  have hfin : ∀ a b : List ℝ, a.map Fl.fin = b.map Fl.fin → a = b := fun a b h =>
    List.map_injective_iff.mpr (fun x y h => by cases h; rfl) h
  obtain ⟨gens, g1, g2⟩ := pairGens_ok mem hmem m (by omega) series hs sts (by
    intro i s hi
    obtain ⟨st, h1, s', h2, h3⟩ := t3 i (s.map .fin) (by rw [List.getElem?_map, hi]; rfl)
    rw [← hfin _ _ h2] at h3
    exact ⟨st, h1, h3⟩)
  have hlen : (series.map (·.map Fl.fin)).length = series.length := List.length_map _
  obtain ⟨best, b1, b2⟩ := searchSeries_ok argsort hsort (series.map (·.map Fl.fin)) m (by rw [hlen]; exact answers mem hmem m series hs)
    (by rw [hlen]; exact hn) (by
      intro i s hi
      rw [List.getElem?_map] at hi
      cases h : series[i]? with
      | none => rw [h] at hi; cases hi
      | some s' => rw [h] at hi; cases hi; rw [List.getD_eq_getElem?_getD, h, Option.getD_some, List.length_map])
    (List.range series.length) (by rw [hlen]; simp) gens (by rw [hlen]; exact g2) ⟨.pinf, -1, -1⟩ ∅ ⟨by simp, Or.inl rfl⟩
  rw [hlen] at b2
  have hfind : findConsensusMotif mem argsort (series.map (·.map .fin)) m = .ok best := by
    unfold findConsensusMotif
    simp only [hg, t1, g1, hlen, b1, bind, Except.bind]
  have hsub : ∀ i a, IsSub m series i a ↔ i < series.length ∧ a < (((series.getD i []).length : Int) - m + 1).toNat := by
    intro i a
    constructor
    · rintro ⟨s, h1, h2⟩
      refine ⟨(List.getElem?_eq_some_iff.mp h1).1, ?_⟩
      rw [List.getD_eq_getElem?_getD, h1, Option.getD_some]; omega
    · rintro ⟨h1, h2⟩
      refine ⟨series[i], List.getElem?_eq_getElem h1, ?_⟩
      rw [List.getD_eq_getElem?_getD, List.getElem?_eq_getElem h1, Option.getD_some] at h2
      have := hs _ (List.getElem_mem h1)
      omega
  have hopt : ∀ i' a' r', IsSub m series i' a' → IsRadius m series i' a' r' → best.radius ≤ .fin r' := by
    intro i' a' r' h1 h2
    have h3 := (hsub i' a').mp h1
    exact b2.1 (i', a') (Or.inr ⟨List.mem_range.mpr h3.1, h3.2⟩) r' ((rad_iff m series hs i' a' h3.1 r').mpr h2)
  rcases b2.2 with h | ⟨i, a, r, h, h1, h2, h3⟩
  · exfalso
    have h0 : IsSub m series 0 0 := ⟨series[0], List.getElem?_eq_getElem (by omega), by simpa using hs _ (List.getElem_mem _)⟩
    obtain ⟨r, hr⟩ := Rad.exists hn (bestMatch m series) 0 0
    have := hopt 0 0 r h0 ((rad_iff m series hs 0 0 (by omega) r).mp hr)
    rw [h] at this
    exact absurd this (by rw [Fl.le_def]; simp [Fl.key])
  · refine ⟨r, i, a, by rw [hfind, h], (hsub i a).mpr ⟨h1, h2⟩, (rad_iff m series hs i a h1 r).mp h3, ?_⟩
    intro i' a' r' h4 h5
    have := hopt i' a' r' h4 h5
    rw [h] at this
    exact (Fl.fin_le_fin _ _).mp this

/-- Every subsequence has a radius. -/
theorem _root_.Verif.C55_radius_exists (m : Nat) (series : List (List ℝ)) (hn : 2 ≤ series.length) (hs : ∀ s ∈ series, m ≤ s.length) (i a : Nat)
    (h : IsSub m series i a) : ∃ r, IsRadius m series i a r ∧ 0 ≤ r := by
  obtain ⟨s, h1, -⟩ := h
  obtain ⟨r, hr⟩ := Rad.exists hn (bestMatch m series) i a
  have h2 := (rad_iff m series hs i a (List.getElem?_eq_some_iff.mp h1).1 r).mp hr
  obtain ⟨j, -, -, s', q, -, -, ⟨b, -, hb⟩, -⟩ := h2.1
  exact ⟨r, h2, by rw [hb]; exact zdist_nonneg _ _ _ _ _ _⟩

/-- Rejected arguments. -/
theorem _root_.Verif.C55_guards (mem : ZN.Mem) (argsort : List (Fl ℝ) → List Nat) (series : List (List (Fl ℝ))) (m : Int)
    (h : series.length < 2 ∨ m < 3 ∨ ∃ s ∈ series, (s.length : Int) < m) : findConsensusMotif mem argsort series m = .error .runtimeError := by
  have : guards series m = .error .runtimeError := by
    unfold guards
    by_cases h1 : series.length < 2
    · rw [if_pos h1]
    · by_cases h2 : m < 3
      · rw [if_neg h1, if_pos h2]
      · rw [if_neg h1, if_neg h2, if_pos]
        rcases h with h | h | ⟨s, h3, h4⟩
        · exact absurd h h1
        · exact absurd h h2
        · exact List.any_eq_true.mpr ⟨s, h3, decide_eq_true h4⟩
  unfold findConsensusMotif
  rw [this]; rfl

/-- Non-finite data are rejected. -/
theorem _root_.Verif.C55_nonfinite (mem : ZN.Mem) (argsort : List (Fl ℝ) → List Nat) (series : List (List (Fl ℝ))) (m : Int)
    (h : ∃ s ∈ series, ∃ x ∈ s, x.isFinite = false) : ∃ e, findConsensusMotif mem argsort series m = .error e := by
  cases hf : findConsensusMotif mem argsort series m with
  | error e => exact ⟨e, rfl⟩
  | ok r =>
    exfalso
    unfold findConsensusMotif at hf
    simp only [bind_ok_iff] at hf
    obtain ⟨-, -, sts, h1, -⟩ := hf
    obtain ⟨s, hs, hx⟩ := h
    have h2 : ∀ s ∈ series, ∃ st, stats mem m s = .ok st := by
      intro s hs
      obtain ⟨i, hi, rfl⟩ := List.getElem_of_mem hs
      have h3 := (forall₂_iff_getElem? _ _ _).mp ((mapM_ok_iff _ _ _).mp h1)
      have hi' : i < sts.length := by rw [h3.1]; exact hi
      exact ⟨_, h3.2 i _ _ (List.getElem?_eq_getElem hi) (List.getElem?_eq_getElem hi')⟩
    obtain ⟨st, h4⟩ := h2 s hs
    obtain ⟨⟨e, he⟩, -⟩ := C15_guards s m (Or.inr (Or.inr hx))
    unfold stats at h4
    rw [he] at h4
    cases h4

/-- An `np.argsort` for the examples. -/
noncomputable def sortIdx (l : List (Fl ℝ)) : List Nat := (List.range l.length).insertionSort fun i j => l.getD i .nan ≤ l.getD j .nan

theorem sortIdx_ok (l : List (Fl ℝ)) : IsArgsort l (sortIdx l) := by
  refine ⟨List.perm_insertionSort _ _, ?_⟩
  let _ : Std.Total fun i j : Nat => l.getD i .nan ≤ l.getD j .nan := ⟨fun a b => le_total _ _⟩
  let _ : IsTrans Nat fun i j : Nat => l.getD i .nan ≤ l.getD j .nan := ⟨fun a b c => le_trans⟩
  have h := List.pairwise_insertionSort (fun i j : Nat => l.getD i .nan ≤ l.getD j .nan) (List.range l.length)
  refine h.imp ?_
  intro i j hij x y hx hy
  simpa [List.getD, hx, hy] using hij

/-- Identical subsequences are at distance 0. -/
theorem isMatch_zero (m : Nat) (series : List (List ℝ)) (i a j b : Nat) (s q : List ℝ) (hs : series[i]? = some s) (hq : series[j]? = some q)
    (hb : b + m ≤ q.length) (h : win m s a = win m q b) : IsMatch m series i a j 0 := by
  refine ⟨s, q, hs, hq, ⟨b, hb, ?_⟩, ?_⟩
  · rw [← zdist_win, h, zdist_self]
  · rintro d ⟨b', -, rfl⟩; exact zdist_nonneg _ _ _ _ _ _

/-- Three series with the common subsequence `0 0 1`: the reported radius is 0. -/
example : ∃ i a : Nat, findConsensusMotif ZN.zeroMem sortIdx ([[0, 0, 1, 5], [7, 0, 0, 1], [2, 4, 0, 0, 1]].map (·.map .fin)) 3 =
    .ok ⟨.fin 0, i, a⟩ := by
  have hs : ∀ s ∈ ([[0, 0, 1, 5], [7, 0, 0, 1], [2, 4, 0, 0, 1]] : List (List ℝ)), 3 ≤ s.length := by simp
  obtain ⟨r, i, a, h1, h2, h3, h4⟩ := C55_optimum ZN.zeroMem ZN.zeroMem_ok sortIdx sortIdx_ok 3 le_rfl [[0, 0, 1, 5], [7, 0, 0, 1], [2, 4, 0, 0, 1]] (by simp) hs
  have m1 : IsMatch 3 [[0, 0, 1, 5], [7, 0, 0, 1], [2, 4, 0, 0, 1]] 0 0 1 0 :=
    isMatch_zero 3 _ 0 0 1 1 [0, 0, 1, 5] [7, 0, 0, 1] rfl rfl (by simp) (by simp [win])
  have m2 : IsMatch 3 [[0, 0, 1, 5], [7, 0, 0, 1], [2, 4, 0, 0, 1]] 0 0 2 0 :=
    isMatch_zero 3 _ 0 0 2 2 [0, 0, 1, 5] [2, 4, 0, 0, 1] rfl rfl (by simp) (by simp [win])
  have h5 : IsRadius 3 [[0, 0, 1, 5], [7, 0, 0, 1], [2, 4, 0, 0, 1]] 0 0 0 := by
    refine ⟨⟨1, by simp, by simp, m1⟩, ?_⟩
    rintro x ⟨j, hj, hj0, hx⟩
    have : j = 1 ∨ j = 2 := by simp at hj; omega
    rcases this with rfl | rfl
    · exact (hx.unique m1).le
    · exact (hx.unique m2).le
  have h6 := h4 0 0 0 ⟨_, rfl, by simp⟩ h5
  obtain ⟨r', h7, h8⟩ := C55_radius_exists 3 _ (by simp) hs i a h2
  rw [h7.unique h3] at h8
  rw [le_antisymm h6 h8] at h1
  exact ⟨i, a, h1⟩

end Ostinato

/-- `C55_guards` and `C55_nonfinite`: a series that is too short, an infinity. -/
example := C55_guards ZN.zeroMem Ostinato.sortIdx [[.fin 1, .fin 2, .fin 3], [.fin 1, .fin 2]] 3 (.inr (.inr ⟨[.fin 1, .fin 2], by simp, by simp⟩))

example := C55_nonfinite ZN.zeroMem Ostinato.sortIdx [[.fin 1, .fin 2, .fin 3], [.fin 1, .pinf, .fin 2]] 3 ⟨[.fin 1, .pinf, .fin 2], by simp, .pinf, by simp, rfl⟩

end Verif
