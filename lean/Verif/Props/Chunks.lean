import Verif.Spec.Asked
import Verif.Props.NearMatrix
import Verif.Props.StreamProfile
import Verif.Lemmas.CaseExamples

/-!
# C105: how appended points are cut into calls does not matter
-/

namespace Verif
open Spec
variable {α K : Type}

/-- The state reached from what was asked. -/
def askedRun (m N : Nat) (M : Option Nat) (next : Nat) (done : Nat → Nat → Prop) : List (List α × List α × Option Int) → MSt α
  | [] => MSt.init
  | (s, q, none) :: _ => ⟨s, if M.isNone then s else q, next, done⟩
  | (s, q, some k) :: xs =>
      let u := MSt.step m N M ⟨s, if M.isNone then s else q, next, done⟩ (.columns k)
      askedRun m N M u.next u.done xs

theorem run_asked (m N : Nat) (M : Option Nat) : ∀ (us : List (MOp α)) (s q : List α) (next : Nat) (done : Nat → Nat → Prop),
    MSt.All m N M (fun u op => u.Valid m M op) ⟨s, if M.isNone then s else q, next, done⟩ us →
    MSt.run m N M ⟨s, if M.isNone then s else q, next, done⟩ us = askedRun m N M next done (asked s q us)
  | [], s, q, next, done, _ => rfl
  | .series v :: us, s, q, next, done, h => by
    have e : MSt.step m N M ⟨s, if M.isNone then s else q, next, done⟩ (.series v) = ⟨s ++ v, if M.isNone then s ++ v else q, next, done⟩ := by
      unfold MSt.step; split <;> simp_all
    have := run_asked m N M us (s ++ v) q next done (e ▸ h.2)
    rw [MSt.run, List.foldl_cons, e]
    exact this
  | .query v :: us, s, q, next, done, h => by
    have hM : M.isNone = false := by
      have := h.1
      unfold MSt.Valid at this
      cases M <;> simp_all
    have e : MSt.step m N M ⟨s, if M.isNone then s else q, next, done⟩ (.query v) = ⟨s, if M.isNone then s else q ++ v, next, done⟩ := by
      unfold MSt.step; simp [hM]
    have := run_asked m N M us s (q ++ v) next done (e ▸ h.2)
    rw [MSt.run, List.foldl_cons, e]
    exact this
  | .columns k :: us, s, q, next, done, h => by
    rw [MSt.run, List.foldl_cons]
    exact run_asked m N M us s q _ _ h.2

/-- What was asked determines the streams and the calculated pairs. -/
theorem asked_run {m N : Nat} {M : Option Nat} {us us' : List (MOp α)} (h : asked [] [] us = asked [] [] us')
    (hv : MSt.init.All m N M (fun u op => u.Valid m M op) us) (hv' : MSt.init.All m N M (fun u op => u.Valid m M op) us') :
    MSt.init.run m N M us = MSt.init.run m N M us' := by
  have e : (MSt.init : MSt α) = ⟨[], if M.isNone then [] else [], 0, fun _ _ => False⟩ := by simp [MSt.init]
  rw [e] at hv hv' ⊢
  rw [run_asked m N M us [] [] _ _ hv, run_asked m N M us' [] [] _ _ hv', h]

/-- A condition on the windows whenever columns are calculated. -/
theorem all_asked (m N : Nat) (M : Option Nat) (P : List α → List α → Prop) : ∀ (us : List (MOp α)) (s q : List α) (next : Nat) (done : Nat → Nat → Prop),
    MSt.All m N M (fun u op => u.Valid m M op) ⟨s, if M.isNone then s else q, next, done⟩ us →
    (MSt.All m N M (fun u op => ∀ k, op = .columns k → P u.s u.q) ⟨s, if M.isNone then s else q, next, done⟩ us ↔
      ∀ x ∈ asked s q us, x.2.2 ≠ none → P x.1 (if M.isNone then x.1 else x.2.1))
  | [], s, q, next, done, _ => by simp [asked, MSt.All]
  | .series v :: us, s, q, next, done, h => by
    have e : MSt.step m N M ⟨s, if M.isNone then s else q, next, done⟩ (.series v) = ⟨s ++ v, if M.isNone then s ++ v else q, next, done⟩ := by
      unfold MSt.step; split <;> simp_all
    have := all_asked m N M P us (s ++ v) q next done (e ▸ h.2)
    rw [asked, ← this, MSt.All, e]
    simp
  | .query v :: us, s, q, next, done, h => by
    have hM : M.isNone = false := by
      have := h.1
      unfold MSt.Valid at this
      cases M <;> simp_all
    have e : MSt.step m N M ⟨s, if M.isNone then s else q, next, done⟩ (.query v) = ⟨s, if M.isNone then s else q ++ v, next, done⟩ := by
      unfold MSt.step; simp [hM]
    have := all_asked m N M P us s (q ++ v) next done (e ▸ h.2)
    rw [asked, ← this, MSt.All, e]
    simp
  | .columns k :: us, s, q, next, done, h => by
    have := all_asked m N M P us s q _ _ h.2
    rw [asked, List.forall_mem_cons, ← this, MSt.All]
    exact and_congr ⟨fun h _ => h k rfl, fun h _ _ => h (by simp)⟩ Iff.rfl

/-! ## Deliveries -/

theorem located_append (ss qs : Int) (es es' : List (CEvent K)) :
    located ss qs (es ++ es') = located ss qs es ++ located (travelled ss qs es).1 (travelled ss qs es).2 es' := by
  induction es generalizing ss qs with
  | nil => rfl
  | cons e es ih => cases e <;> simp [located, travelled, ih]

theorem travelled_append (ss qs : Int) (es es' : List (CEvent K)) :
    travelled ss qs (es ++ es') = travelled (travelled ss qs es).1 (travelled ss qs es).2 es' := by
  induction es generalizing ss qs with
  | nil => rfl
  | cons e es ih => cases e <;> simp [travelled, ih]

/-- The columns with their positions that follow from what was asked. -/
def askedColumns (m N : Nat) (M : Option Nat) (b : Int) (D : Nat → List α → List α → Fl K) (ids : List Nat) (next : Nat) (done : Nat → Nat → Prop) :
    List (List α × List α × Option Int) → List (Int × Int × Int × List (List (Fl K)))
  | [] => []
  | (_, _, none) :: _ => []
  | (s, q, some k) :: xs =>
      let u : MSt α := ⟨s, if M.isNone then s else q, next, done⟩
      located ((s.length - N : Nat) : Int) ((u.q.length - M.getD N : Nat) : Int) (u.events m N M b D ids (.columns k)) ++
        askedColumns m N M b D ids (u.step m N M (.columns k)).next (u.step m N M (.columns k)).done xs

theorem moved_series {m N : Nat} {M : Option Nat} {b : Int} {D : Nat → List α → List α → Fl K} {ids : List Nat} (u : MSt α) (v : List α)
    (hs : M.isNone → u.q = u.s) :
    located ((u.s.length - N : Nat) : Int) ((u.q.length - M.getD N : Nat) : Int) (u.events m N M b D ids (.series v)) = [] ∧
      travelled ((u.s.length - N : Nat) : Int) ((u.q.length - M.getD N : Nat) : Int) (u.events m N M b D ids (.series v)) =
        ((((u.s ++ v).length - N : Nat) : Int), (((if M.isNone then u.q ++ v else u.q).length - M.getD N : Nat) : Int)) := by
  cases M with
  | none =>
    have e := hs rfl
    simp only [MSt.events, moved, e, Option.isNone_none, if_true, Option.getD_none, List.length_append]
    split
    · simp [located, travelled]; omega
    · simp [located, travelled]; omega
  | some M =>
    simp only [MSt.events, moved, Option.isNone_some, Bool.false_eq_true, if_false, Option.getD_some, List.length_append]
    split
    · simp [located, travelled]; omega
    · simp [located, travelled]; omega

theorem moved_query {m N : Nat} {M : Option Nat} {b : Int} {D : Nat → List α → List α → Fl K} {ids : List Nat} (u : MSt α) (v : List α) :
    located ((u.s.length - N : Nat) : Int) ((u.q.length - M.getD N : Nat) : Int) (u.events m N M b D ids (.query v)) = [] ∧
      travelled ((u.s.length - N : Nat) : Int) ((u.q.length - M.getD N : Nat) : Int) (u.events m N M b D ids (.query v)) =
        (((u.s.length - N : Nat) : Int), (((u.q ++ v).length - M.getD N : Nat) : Int)) := by
  simp only [MSt.events, List.length_append]
  by_cases h : moved (M.getD N) u.q.length v.length = 0
  · rw [if_pos h]; unfold moved at h; simp [located, travelled]; omega
  · rw [if_neg h]; unfold moved at h ⊢; simp [located, travelled]; omega

theorem moved_columns {m N : Nat} {M : Option Nat} {b : Int} {D : Nat → List α → List α → Fl K} {ids : List Nat} (u : MSt α) (k : Int) (ss qs : Int) :
    travelled ss qs (u.events m N M b D ids (.columns k)) = (ss, qs) := by
  simp only [MSt.events]
  generalize List.range (min k.toNat ((lastN N u.s).length + 1 - m) - (u.next - (u.s.length - N))) = l
  induction l with
  | nil => rfl
  | cons x l ih => exact ih

theorem located_asked (m N : Nat) (M : Option Nat) (b : Int) (D : Nat → List α → List α → Fl K) (ids : List Nat) :
    ∀ (us : List (MOp α)) (s q : List α) (next : Nat) (done : Nat → Nat → Prop),
    MSt.All m N M (fun u op => u.Valid m M op) ⟨s, if M.isNone then s else q, next, done⟩ us →
    located ((s.length - N : Nat) : Int) (((if M.isNone then s else q).length - M.getD N : Nat) : Int)
        (MSt.allEvents m N M b D ids ⟨s, if M.isNone then s else q, next, done⟩ us) = askedColumns m N M b D ids next done (asked s q us) ∧
      travelled ((s.length - N : Nat) : Int) (((if M.isNone then s else q).length - M.getD N : Nat) : Int)
        (MSt.allEvents m N M b D ids ⟨s, if M.isNone then s else q, next, done⟩ us) =
          ((((askedRun m N M next done (asked s q us)).s.length - N : Nat) : Int), (((askedRun m N M next done (asked s q us)).q.length - M.getD N : Nat) : Int))
  | [], s, q, next, done, _ => ⟨rfl, rfl⟩
  | .series v :: us, s, q, next, done, h => by
    have e : MSt.step m N M ⟨s, if M.isNone then s else q, next, done⟩ (.series v) = ⟨s ++ v, if M.isNone then s ++ v else q, next, done⟩ := by
      unfold MSt.step; split <;> simp_all
    have ih := located_asked m N M b D ids us (s ++ v) q next done (e ▸ h.2)
    have hm := moved_series (m := m) (N := N) (M := M) (b := b) (D := D) (ids := ids) ⟨s, if M.isNone then s else q, next, done⟩ v (by intro h; simp [h])
    have hq : (if M.isNone then (if M.isNone then s else q) ++ v else (if M.isNone then s else q)) = if M.isNone then s ++ v else q := by
      split <;> simp_all
    dsimp only at hm
    rw [hq] at hm
    rw [MSt.allEvents, located_append, travelled_append, hm.1, hm.2, e]
    exact ⟨ih.1, ih.2⟩
  | .query v :: us, s, q, next, done, h => by
    have hM : M.isNone = false := by
      have := h.1
      unfold MSt.Valid at this
      cases M <;> simp_all
    have e : MSt.step m N M ⟨s, if M.isNone then s else q, next, done⟩ (.query v) = ⟨s, if M.isNone then s else q ++ v, next, done⟩ := by
      unfold MSt.step; simp [hM]
    have ih := located_asked m N M b D ids us s (q ++ v) next done (e ▸ h.2)
    have hm := moved_query (m := m) (N := N) (M := M) (b := b) (D := D) (ids := ids) ⟨s, if M.isNone then s else q, next, done⟩ v
    have hq : (if M.isNone then s else q) ++ v = if M.isNone then s else q ++ v := by simp [hM]
    dsimp only at hm
    rw [hq] at hm
    rw [MSt.allEvents, located_append, travelled_append, hm.1, hm.2, e]
    exact ⟨ih.1, ih.2⟩
  | .columns k :: us, s, q, next, done, h => by
    have ih := located_asked m N M b D ids us s q _ _ h.2
    rw [MSt.allEvents, located_append, travelled_append, moved_columns]
    exact ⟨by rw [asked, askedColumns]; exact congrArg _ ih.1, ih.2⟩

/-! ## Whole calculations -/

/-- The same calculator, other calls, other memory, other interrupts. -/
def StreamCase.again (S : StreamCase α) (S' : StreamCase α) : StreamCase α :=
  { S with memE := S'.memE, memZ := S'.memZ, needed := S'.needed, us := S'.us, os := S'.os }

variable {S T : StreamCase α} {idss : List (List Nat)}

/-- Accepted distances stay accepted. -/
theorem StreamCase.Ok.again (hS : S.Ok idss) (hT : (S.again T).Any idss) (h : asked [] [] S.us = asked [] [] T.us) : (S.again T).Ok idss := by
  refine ⟨hT, ?_⟩
  have e : (MSt.init : MSt α) = ⟨[], if S.M.isNone then [] else [], 0, fun _ _ => False⟩ := by simp [MSt.init]
  have h1 := hS.good
  have h2 := hS.valid
  have h3 : MSt.init.All S.m S.N S.M (fun u op => u.Valid S.m S.M op) T.us := hT.valid
  show MSt.init.All S.m S.N S.M (fun u op => ∀ k, op = .columns k → ∀ g ∈ S.kinds,
    g.1.Good S.m (lastN S.N (u.s.map (S.π g.2))) (lastN (S.M.getD S.N) (u.q.map (S.π g.2)))) T.us
  rw [e] at h1 h2 h3 ⊢
  have a := (all_asked S.m S.N S.M (fun s q => ∀ g ∈ S.kinds, g.1.Good S.m (lastN S.N (s.map (S.π g.2))) (lastN (S.M.getD S.N) (q.map (S.π g.2)))) S.us
    [] [] _ _ h2).mp h1
  rw [h] at a
  exact (all_asked S.m S.N S.M (fun s q => ∀ g ∈ S.kinds, g.1.Good S.m (lastN S.N (s.map (S.π g.2))) (lastN (S.M.getD S.N) (q.map (S.π g.2)))) T.us
    [] [] _ _ h3).mpr a

theorem again_last (hS : S.Any idss) (hT : (S.again T).Any idss) (h : asked [] [] S.us = asked [] [] T.us) : (S.again T).last = S.last :=
  (asked_run h hS.valid hT.valid).symm

/-- What a consumer that notes its calls has noted in the two calculations. -/
theorem again_events (hS : S.Any idss) (hT : (S.again T).Any idss) (h : asked [] [] S.us = asked [] [] T.us) (ids : List Nat) :
    located 0 0 ((S.again T).events ids) = located 0 0 (S.events ids) ∧ travelled 0 0 ((S.again T).events ids) = travelled 0 0 (S.events ids) := by
  have e : (MSt.init : MSt α) = ⟨[], if S.M.isNone then [] else [], 0, fun _ _ => False⟩ := by simp [MSt.init]
  have h2 := hS.valid
  have h3 : MSt.init.All S.m S.N S.M (fun u op => u.Valid S.m S.M op) T.us := hT.valid
  have z : ((([] : List α).length - S.N : Nat) : Int) = 0 ∧ (((if S.M.isNone then [] else ([] : List α)).length - S.M.getD S.N : Nat) : Int) = 0 := by simp
  unfold StreamCase.events
  rw [e] at h2 h3 ⊢
  have a1 := located_asked S.m S.N S.M S.b (streamDist S.π S.m S.kinds) ids S.us [] [] _ _ h2
  have a2 := located_asked S.m S.N S.M S.b (streamDist S.π S.m S.kinds) ids T.us [] [] _ _ h3
  rw [z.1, z.2] at a1 a2
  rw [← h] at a2
  exact ⟨a2.1.trans a1.1.symm, a2.2.trans a1.2.symm⟩

/-- **C105, consumers in general.** Two streaming calculations with the same windows, generators and consumers, which append the same points before
each `calculate_columns`, cut into `append_series` and `append_query` calls in any way, in any order: every consumer receives the same columns at the same positions of the streams, with
the same distances in the same order, and the windows have in the end moved equally far. `memory`, interrupts and arguments that hold no points may differ. -/
theorem C105_deliveries_partial (idss : List (List Nat)) (hS : S.Ok idss) (hT : (S.again T).Any idss) (h : asked [] [] S.us = asked [] [] T.us) :
    ∃ cs cs', S.result recorder (idss.map fun ids => ([], ids)) = .ok cs ∧ (S.again T).result recorder (idss.map fun ids => ([], ids)) = .ok cs' ∧
      List.Forall₂ (fun c c' => c.2 = c'.2 ∧ located 0 0 c.1 = located 0 0 c'.1 ∧ travelled 0 0 c.1 = travelled 0 0 c'.1) cs cs' := by
  have hT' := hS.again hT h
  obtain ⟨cs, e1, e2⟩ := StreamCase.consumersOf (S := S) recorder (fun _ => rfl) idss (fun ids => ([], ids)) (by simpa using hS)
    (fun ids c => c = S.events ids) (fun ids _ => ⟨[], S.events ids, rfl, by rw [recorder_feed]; rfl, rfl⟩)
  obtain ⟨cs', e1', e2'⟩ := StreamCase.consumersOf (S := S.again T) recorder (fun _ => rfl) idss (fun ids => ([], ids)) (by simpa using hT')
    (fun ids c => c = (S.again T).events ids) (fun ids _ => ⟨[], (S.again T).events ids, rfl, by rw [recorder_feed]; rfl, rfl⟩)
  refine ⟨cs, cs', e1, e1', ?_⟩
  rw [forall₂_iff_getElem?] at e2 e2' ⊢
  refine ⟨by rw [e2.1, e2'.1], fun i c c' hc hc' => ?_⟩
  obtain ⟨ids, hi⟩ : ∃ ids, idss[i]? = some ids := by
    have := (List.getElem?_eq_some_iff.mp hc).1
    exact ⟨_, List.getElem?_eq_getElem (by rw [← e2.1]; exact this)⟩
  obtain ⟨x1, x2⟩ := e2.2 i ids c hi hc
  obtain ⟨y1, y2⟩ := e2'.2 i ids c' hi hc'
  have := again_events hS.toAny hT h ids
  rw [x1, y1, x2, y2]
  exact ⟨rfl, this.1.symm, this.2.symm⟩

/-- **C105, z-normalised Euclidean distance.** No restriction on the data. -/
theorem C105_deliveries_znorm (idss : List (List Nat)) (hz : ∀ k ∈ S.kinds, ∃ noise scale, k.1 = .znorm noise scale) (hS : S.Any idss) (hT : (S.again T).Any idss)
    (h : asked [] [] S.us = asked [] [] T.us) :
    ∃ cs cs', S.result recorder (idss.map fun ids => ([], ids)) = .ok cs ∧ (S.again T).result recorder (idss.map fun ids => ([], ids)) = .ok cs' ∧
      List.Forall₂ (fun c c' => c.2 = c'.2 ∧ located 0 0 c.1 = located 0 0 c'.1 ∧ travelled 0 0 c.1 = travelled 0 0 c'.1) cs cs' := by
  refine C105_deliveries_partial idss ⟨hS, ?_⟩ hT h
  have := allGood_znorm S.π S.m S.N S.M S.kinds hz S.us MSt.init hS.valid
  revert this
  generalize (MSt.init : MSt α) = u
  generalize S.us = us
  induction us generalizing u with
  | nil => intro _; trivial
  | cons x us ih => intro h; exact ⟨h.1.2, ih _ h.2⟩

/-- The smallest value and the first row with it are unique. -/
theorem nearest_unique [LinearOrder K] {P : Nat → Prop} {f : Nat → Fl K} {v v' : Fl K} {i i' : Int} (h : Nearest P f v i) (h' : Nearest P f v' i') : v = v' ∧ i = i' := by
  rcases h with ⟨rfl, rfl, h⟩ | ⟨h1, r, rfl, h2, rfl, h4⟩ <;> rcases h' with ⟨rfl, rfl, h'⟩ | ⟨h1', r', rfl, h2', rfl, h4'⟩
  · exact ⟨rfl, rfl⟩
  · rw [h r' h2'] at h1'
    exact absurd h1' (lt_irrefl _)
  · rw [h' r h2] at h1
    exact absurd h1 (lt_irrefl _)
  · have e : f r = f r' := le_antisymm (h4 r' h2').1 (h4' r h2).1
    refine ⟨e, ?_⟩
    rcases lt_trichotomy r r' with hr | rfl | hr
    · exact absurd ((h4' r h2).2 hr) (by rw [e]; exact lt_irrefl _)
    · rfl
    · exact absurd ((h4 r' h2').2 hr) (by rw [e]; exact lt_irrefl _)

/-- Two profiles that show the same are the same. -/
theorem ShowsProfile.unique {D : List α → List α → Fl ℝ} {m N : Nat} {b : Int} {u : MSt α} {p p' : ShiftingMP ℝ} (h : ShowsProfile D m N b u p)
    (h' : ShowsProfile D m N b u p') : p.left.mp.items = p'.left.mp.items ∧ p.left.pi.items = p'.left.pi.items ∧
      p.right.mp.items = p'.right.mp.items ∧ p.right.pi.items = p'.right.pi.items := by
  obtain ⟨a1, a2, a3, a4⟩ := h.len
  obtain ⟨b1, b2, b3, b4⟩ := h'.len
  refine ⟨?_, ?_, ?_, ?_⟩ <;> refine List.ext_getElem? fun c => ?_ <;> by_cases hc : c < N + 1 - m
  all_goals first
    | (rw [List.getElem?_eq_none (by omega), List.getElem?_eq_none (by omega)])
    | (obtain ⟨v, i, e1, e2, e3⟩ := h.left c hc
       obtain ⟨v', i', f1, f2, f3⟩ := h'.left c hc
       obtain ⟨rfl, rfl⟩ := nearest_unique e3 f3
       first | (rw [e1, f1]) | (rw [e2, f2]))
    | (obtain ⟨v, i, e1, e2, e3⟩ := h.right c hc
       obtain ⟨v', i', f1, f2, f3⟩ := h'.right c hc
       obtain ⟨rfl, rfl⟩ := nearest_unique e3 f3
       first | (rw [e1, f1]) | (rw [e2, f2]))

/-- **C105, profiles.** The two calculations leave every `ShiftingMatrixProfileLR` with the same left and right profiles and indices, whatever memory
their arrays were made of; hence also the same merged ones. Partial: for Euclidean generators no two different subsequences in the windows at squared
distance below `1e-15` when columns are calculated (`C63_euclidean_wrong`). -/
theorem C105_profiles_partial (memF memF' : Nat → List (Fl ℝ)) (memI memI' : Nat → List Int) (hF : ∀ n, (memF n).length = n) (hF' : ∀ n, (memF' n).length = n)
    (hI : ∀ n, (memI n).length = n) (hI' : ∀ n, (memI' n).length = n)
    (scale scale' : ℚ) (h1 : 1 ≤ scale) (h2 : scale ≤ 2) (h1' : 1 ≤ scale') (h2' : scale' ≤ 2) (consumers : List (ShiftingMP ℝ × Nat))
    (hfresh : ∀ c ∈ consumers, c.1.seriesShift = 0 ∧ c.1.queryShift = 0) (hS : S.Ok (consumers.map fun c => [c.2]))
    (hT : (S.again T).Any (consumers.map fun c => [c.2])) (h : asked [] [] S.us = asked [] [] T.us) :
    ∃ ps ps' : List (ShiftingMP ℝ),
      S.result (ShiftingMP.ops memF memI scale) (consumers.map fun c => (c.1, [c.2])) = .ok (List.zipWith (fun p c => (p, [c.2])) ps consumers) ∧
      (S.again T).result (ShiftingMP.ops memF' memI' scale') (consumers.map fun c => (c.1, [c.2])) = .ok (List.zipWith (fun p c => (p, [c.2])) ps' consumers) ∧
      List.Forall₂ (fun p p' : ShiftingMP ℝ => p.left.mp.items = p'.left.mp.items ∧ p.left.pi.items = p'.left.pi.items ∧
        p.right.mp.items = p'.right.mp.items ∧ p.right.pi.items = p'.right.pi.items) ps ps' ∧ ps.length = consumers.length := by
  have hT' := hS.again hT h
  have hlast := again_last hS.toAny hT h
  obtain ⟨ps, e1, e2⟩ := C63_streaming_profile_partial S.memE hS.memE S.memZ hS.memZ memF memI hF hI scale h1 h2 S.π S.m S.N S.M S.nDim S.buffer S.kinds consumers
    hfresh S.needed hS.args S.us S.os hS.calls hS.validGood
  obtain ⟨ps', e1', e2'⟩ := C63_streaming_profile_partial T.memE hT'.memE T.memZ hT'.memZ memF' memI' hF' hI' scale' h1' h2' S.π S.m S.N S.M S.nDim S.buffer S.kinds consumers
    hfresh T.needed hT'.args T.us T.os hT'.calls hT'.validGood
  refine ⟨ps, ps', e1, e1', ?_, e2.length_eq⟩
  have hl : MSt.init.run S.m S.N S.M T.us = MSt.init.run S.m S.N S.M S.us := hlast
  rw [hl] at e2'
  rw [forall₂_iff_getElem?] at e2 e2' ⊢
  refine ⟨by rw [← e2.1, ← e2'.1], fun i p p' hp hp' => ?_⟩
  obtain ⟨c, hi⟩ : ∃ c, consumers[i]? = some c := by
    have := (List.getElem?_eq_some_iff.mp hp).1
    exact ⟨_, List.getElem?_eq_getElem (by rw [e2.1]; exact this)⟩
  exact (e2.2 i p c hp hi).unique (e2'.2 i p' c hp' hi)

/-- **C105, matrices.** The two calculations leave every `DistanceMatrix` with the same entries. Partial in the same way as the profiles. -/
theorem C105_matrix_partial (ids : List Nat) (hS : S.Ok (ids.map fun id => [id])) (hT : (S.again T).Any (ids.map fun id => [id]))
    (h : asked [] [] S.us = asked [] [] T.us) :
    ∃ cs cs', S.result DM.ops (ids.map fun id => (DM.new, [id])) = .ok cs ∧ (S.again T).result DM.ops (ids.map fun id => (DM.new, [id])) = .ok cs' ∧
      List.Forall₂ (fun c c' => c.2 = c'.2 ∧ c.1.h = S.h ∧ c'.1.h = S.h ∧ c.1.w = S.w ∧ c'.1.w = S.w ∧ ∀ r < S.h, ∀ k < S.w, c.1.m r k = c'.1.m r k) cs cs' := by
  have key : ∀ (U : StreamCase α), U.Ok (ids.map fun id => [id]) → ∃ cs, U.result DM.ops (ids.map fun id => (DM.new, [id])) = .ok cs ∧
      List.Forall₂ (fun id c => c.2 = [id] ∧ c.1.h = U.h ∧ c.1.w = U.w ∧ ∀ r < U.h, ∀ k < U.w,
        (U.last.done (r + (U.last.q.length - U.M.getD U.N)) (k + (U.last.s.length - U.N)) →
          c.1.m r k = U.value id (r + (U.last.q.length - U.M.getD U.N)) (k + (U.last.s.length - U.N))) ∧
        (¬ U.last.done (r + (U.last.q.length - U.M.getD U.N)) (k + (U.last.s.length - U.N)) → c.1.m r k = .nan)) ids cs := by
    intro U hU
    refine StreamCase.consumersOf (S := U) DM.ops (fun _ => rfl) ids (fun id => ((DM.new : DM ℝ), [id])) hU (fun id p => p.h = U.h ∧ p.w = U.w ∧ ∀ r < U.h, ∀ k < U.w,
        (U.last.done (r + (U.last.q.length - U.M.getD U.N)) (k + (U.last.s.length - U.N)) →
          p.m r k = U.value id (r + (U.last.q.length - U.M.getD U.N)) (k + (U.last.s.length - U.N))) ∧
        (¬ U.last.done (r + (U.last.q.length - U.M.getD U.N)) (k + (U.last.s.length - U.N)) → p.m r k = .nan)) fun id hid => ?_
    have hlt := hU.id_lt (List.mem_map_of_mem hid) (by simp : id ∈ [id])
    obtain ⟨p, q, e1, e2, e3, e3', e4⟩ := C44_distance_matrix U.h U.w (U.dels id) (fun d hd => (hU.toAny.dels_valid hlt d hd).1)
    refine ⟨p, q, e1, by rw [StreamCase.events_single, DM.feed_eq]; exact e2, e3, e3', fun r hr c hc => ?_⟩
    have hfit := hU.toAny.fits id
    have hl := e4 r hr c hc
    rw [hfit.ss, hfit.qs] at hl
    refine ⟨fun h => ?_, fun h => ?_⟩
    · rcases hl with ⟨pre, post, h4, -⟩ | ⟨-, hno⟩
      · obtain ⟨r', c', -, hx⟩ := (hfit.mem ⟨((r + (U.last.q.length - U.M.getD U.N) : Nat) : Int), ((c + (U.last.s.length - U.N) : Nat) : Int), q.m r c⟩).mp (by rw [h4]; simp)
        simp only [Cell.mk.injEq, Int.natCast_inj] at hx
        rw [hx.2.2, hx.1, hx.2.1]
        rfl
      · exact absurd ⟨rfl, rfl⟩ (hno _ ((hfit.mem _).mpr ⟨_, _, h, rfl⟩))
    · rcases hl with ⟨pre, post, h4, -⟩ | ⟨hn, -⟩
      · obtain ⟨r', c', hd, hx⟩ := (hfit.mem ⟨((r + (U.last.q.length - U.M.getD U.N) : Nat) : Int), ((c + (U.last.s.length - U.N) : Nat) : Int), q.m r c⟩).mp (by rw [h4]; simp)
        simp only [Cell.mk.injEq, Int.natCast_inj] at hx
        rw [← hx.1, ← hx.2.1] at hd
        exact absurd hd h
      · exact hn
  have hT' := hS.again hT h
  have hlast := again_last hS.toAny hT h
  obtain ⟨cs, e1, e2⟩ := key S hS
  obtain ⟨cs', e1', e2'⟩ := key (S.again T) hT'
  refine ⟨cs, cs', e1, e1', ?_⟩
  rw [forall₂_iff_getElem?] at e2 e2' ⊢
  refine ⟨by rw [e2.1, e2'.1], fun i c c' hc hc' => ?_⟩
  obtain ⟨id, hi⟩ : ∃ id, ids[i]? = some id := by
    have := (List.getElem?_eq_some_iff.mp hc).1
    exact ⟨_, List.getElem?_eq_getElem (by rw [← e2.1]; exact this)⟩
  obtain ⟨x1, x2, x3, x4⟩ := e2.2 i id c hi hc
  obtain ⟨y1, y2, y3, y4⟩ := e2'.2 i id c' hi hc'
  refine ⟨by rw [x1, y1], x2, y2, x3, y3, fun r hr k hk => ?_⟩
  have x := x4 r hr k hk
  have y := y4 r hr k hk
  unfold StreamCase.value at x y
  rw [hlast] at y
  by_cases hd : S.last.done (r + (S.last.q.length - S.M.getD S.N)) (k + (S.last.s.length - S.N))
  · exact (x.1 hd).trans (y.1 hd).symm
  · exact (x.2 hd).trans (y.2 hd).symm

/-- The second column of squared distances for the series 2e-8, 5, 9 with a window of 4 and the query 0, 5, `m = 1`. After the first column the other points come with
the calls `parts`. -/
def exParts (parts : List (Streaming.Op ℚ)) : Except PyErr (List (List (List (List (Fl ℚ))))) :=
  (streamAll (recorder (Eucl.genOps zeroMem (fun x : ℚ => x))) [(Eucl.streaming zeroMem 2, 0)] [([], [0])] [0] 1 4 (some 2) 1 none
    ([.query (.d2 [[.fin 0, .fin 5]] 2), .series (.d2 [[.fin (1 / 50000000)]] 1), .columns (fun _ => false) (.int 1)] ++ parts ++
      [.columns (fun _ => false) (.int 2)])).map
    (fun l => l.map fun x => (x.1.filterMap fun e => match e with | .column _ v => some v | _ => none).drop 1)

/-- The Euclidean part of C105 does not hold for every input (squared distances, exact data): series 2e-8, 5, 9 with a window of 4, query 0, 5, `m = 1`. If the last two points come
in one call, `append_series` takes one of the points in the window for dropped and column 1 is calculated anew; if they come in two calls, it is calculated from column 0, where the squared distance 4e-16 counts as 0,
and the pair (1, 1) at distance 0 gives NaN. -/
theorem C105_euclidean_differ : exParts [.series (.d2 [[.fin 5, .fin 9]] 2)] = .ok [[[[.fin 25, .fin 0]]]] ∧
    exParts [.series (.d2 [[.fin 5]] 1), .series (.d2 [[.fin 9]] 1)] = .ok [[[[.fin 25, .nan]]]] :=
  ⟨by decide +kernel, by decide +kernel⟩

/-! ## A case -/

/-- The points of `exFrames` in other calls: query first, the series in three parts, an empty part, one uninterrupted call per column. -/
def exOtherFrames : List (MOp (ℤ × ℤ)) :=
  [.columns 1, .query [(4, 1)], .series [(1, 2), (5, 0)], .query [(4, 6), (7, 2)], .series [(2, 7), (8, 1), (3, 3)], .series [], .columns 1, .series [(9, 9)], .columns 3,
   .query [(0, 5)], .columns 3]

noncomputable def exOtherCalls : List (Streaming.Op ℝ) :=
  [.columns (fun _ => false) (.float (.fin (1 / 3))),
   .query (.d1 [.fin 4, .fin 1]), .series (.d2 [[.fin 1, .fin 5], [.fin 2, .fin 0]] 2), .query (.d2 [[.fin 4, .fin 7], [.fin 6, .fin 2]] 2),
   .series (.d2 [[.fin 2, .fin 8, .fin 3], [.fin 7, .fin 1, .fin 3]] 3), .series (.d2 [[], []] 0),
   .columns (fun _ => false) (.int 1), .series (.d1 [.fin 9, .fin 9]), .columns (fun _ => false) (.int 3),
   .query (.d1 [.fin 0, .fin 5]), .columns (fun _ => true) (.int 3)]

noncomputable def exOtherCase : StreamCase (ℤ × ℤ) :=
  { exStreamCase with memE := fun n => List.replicate n (.fin 5), needed := [2, 0], us := exOtherFrames, os := exOtherCalls }

theorem exOther_asked : asked [] [] exStreamCase.us = asked [] [] exOtherCase.us := by
  simp [exStreamCase, exOtherCase, exFrames, exOtherFrames, asked]

theorem exOther_any {idss : List (List Nat)} (h : ∀ ids ∈ idss, ∀ id ∈ ids, id = 0 ∨ id = 2) (h0 : ∃ ids ∈ idss, 0 ∈ ids) (h2 : ∃ ids ∈ idss, 2 ∈ ids) :
    (exStreamCase.again exOtherCase).Any idss := by
  have hs := exStreamCase_ok h h0 h2
  refine ⟨fun n => List.length_replicate, hs.memZ, ?_, ?_, ?_⟩
  · have := hs.args
    exact { this with nodup := by decide, needed := fun id => by rw [← this.needed]; simp [StreamCase.again, exOtherCase, exStreamCase, or_comm] }
  · show AreCalls 2 exChan 2 4 (some 3) MSt.init exOtherFrames exOtherCalls
    refine ⟨⟨1, .inr ⟨1 / 3, rfl, by norm_num, by norm_num, by norm_num⟩, by simp, .inl rfl⟩, .inr ⟨(4, 1), rfl, ?_⟩, .inl ?_, .inl ?_, .inl ?_, .inl ?_,
      ⟨1, .inl rfl, by simp, .inl rfl⟩, .inr ⟨(9, 9), rfl, ?_⟩,
      ⟨3, .inl rfl, by simp, .inl rfl⟩, .inr ⟨(0, 5), rfl, ?_⟩, ⟨3, .inl rfl, ?_, .inl rfl⟩, trivial⟩
    · simp [exChan, List.range_succ]
    · simp [exChan, List.range_succ]
    · simp [exChan, List.range_succ]
    · simp [exChan, List.range_succ]
    · simp [exChan, List.range_succ]
    · simp [exChan, List.range_succ]
    · simp [exChan, List.range_succ]
    · intro c h1 h2
      simp [MSt.step, MSt.init, lastN] at h1
      omega
  · show MSt.init.All 2 4 (some 3) (fun u op => u.Valid 2 (some 3) op) exOtherFrames
    refine ⟨?_, ?_, ?_, ?_, ?_, ?_, ?_, ?_, ?_, ?_, ?_, trivial⟩ <;> simp [MSt.Valid, MSt.step, MSt.init]

example := C105_deliveries_partial [[0, 2], [2]] (exStreamCase_ok (by simp) (by simp) (by simp)) (exOther_any (by simp) (by simp) (by simp)) exOther_asked
/-- The same with the z-normalised generators only. -/
noncomputable def exOtherZ : StreamCase (ℤ × ℤ) := { exStreamCase with kinds := [(.znorm 0 (3 / 2), 0), (.znorm (1 / 10) 1, 1)], needed := [1] }
example := C105_deliveries_znorm (S := exOtherZ) (T := { exOtherCase with needed := [1] }) [[1]] (by simp [exOtherZ])
  ⟨fun n => List.length_replicate, ZN.zeroMem_ok, ⟨by decide, by decide, by simp [exOtherZ, exStreamCase], by simp [exOtherZ, exStreamCase],
    by simp [exOtherZ, GenKind.ScaleOk]; norm_num, by simp [exOtherZ, exStreamCase], by simp [exOtherZ], by decide, by simp [exOtherZ]⟩,
    (exStreamCase_ok (idss := [[0, 2]]) (by simp) (by simp) (by simp)).calls, (exStreamCase_ok (idss := [[0, 2]]) (by simp) (by simp) (by simp)).valid⟩
  ⟨fun n => List.length_replicate, ZN.zeroMem_ok, ⟨by decide, by decide, by simp [StreamCase.again, exOtherZ, exStreamCase], by simp [StreamCase.again, exOtherZ, exStreamCase],
    by simp [StreamCase.again, exOtherZ, GenKind.ScaleOk]; norm_num, by simp [StreamCase.again, exOtherZ, exStreamCase], by simp [StreamCase.again, exOtherZ], by decide,
    by simp [StreamCase.again]⟩,
    (exOther_any (idss := [[0, 2]]) (by simp) (by simp) (by simp)).calls, (exOther_any (idss := [[0, 2]]) (by simp) (by simp) (by simp)).valid⟩ exOther_asked
example := C105_matrix_partial [2, 0] (exStreamCase_ok (by simp) (by simp) (by simp)) (exOther_any (by simp) (by simp) (by simp)) exOther_asked
example (memF memF' : Nat → List (Fl ℝ)) (memI memI' : Nat → List Int) (hF : ∀ n, (memF n).length = n) (hF' : ∀ n, (memF' n).length = n)
    (hI : ∀ n, (memI n).length = n) (hI' : ∀ n, (memI' n).length = n) (c : ShiftingMP ℝ) (hc : c.seriesShift = 0 ∧ c.queryShift = 0) :=
  C105_profiles_partial memF memF' memI memI' hF hF' hI hI' 2 (3 / 2) (by norm_num) (by norm_num) (by norm_num) (by norm_num) [(c, 0), (c, 2)]
    (by simpa using hc) (exStreamCase_ok (by simp) (by simp) (by simp)) (exOther_any (by simp) (by simp) (by simp)) exOther_asked

end Verif
