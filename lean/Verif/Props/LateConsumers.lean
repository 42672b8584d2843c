import Verif.Lemmas.StreamTrim
import Verif.Props.StreamProfile
import Verif.Props.SessionsLate

/-!
# C98: profiles that are added to a `StreamingCalculator` at any time
-/

namespace Verif
open Spec
variable {α K C P : Type}

/-- **C98.** What a consumer receives from some time on depends only on what the windows hold at that time (and on how many of their columns have been
calculated): it is told the same as in a calculation that begins `a` points of the series and `b` points of the query later, if these have left the windows. -/
theorem C98_windows (m N : Nat) (M : Option Nat) (buffer : Option Int) (D : Nat → List α → List α → Fl K) (ids : List Nat) (u : MSt α) (a b : Nat)
    (hg : Gone N M a b u) (us : List (MOp α)) (hall : u.All m N M (fun u op => u.Valid m M op) us) :
    MSt.allEvents m N M (bufferOf m M buffer) D ids u us = MSt.allEvents m N M (bufferOf m M buffer) D ids (u.since a b) us :=
  SameWindows.allEvents (fun h => by unfold bufferOf; rw [if_neg]; simpa using h) D ids us u _ (.since hg) hall

theorem since_run (m N : Nat) (M : Option Nat) (E : Nat → Nat → Prop) (a b : Nat) : ∀ (us : List (MOp α)) (w v : MSt α), v.s = w.s.drop a → v.q = w.q.drop b → v.next = w.next - a → a ≤ w.s.length - N → b ≤ w.q.length - M.getD N →
      w.All m N M (fun u op => u.Valid m M op) us →
      (v.run m N M us).s = (w.run m N M us).s.drop a ∧ (v.run m N M us).q = (w.run m N M us).q.drop b ∧
      ∀ r c, (w.done r c ↔ E r c ∨ (b ≤ r ∧ a ≤ c ∧ v.done (r - b) (c - a))) →
        ((w.run m N M us).done r c ↔ E r c ∨ (b ≤ r ∧ a ≤ c ∧ (v.run m N M us).done (r - b) (c - a))) := by
  intro us
  induction us with
  | nil => intro w v h1 h2 h3 _ _ _; exact ⟨h1, h2, fun r c h => h⟩
  | cons op us ih =>
    intro w v h1 h2 h3 h4 h5 hall
    have l1 : v.s.length = w.s.length - a := by rw [h1, List.length_drop]
    have l2 : v.q.length = w.q.length - b := by rw [h2, List.length_drop]
    cases op with
    | series x =>
      by_cases hM : M.isNone = true
      · refine ih (w.step m N M (.series x)) (v.step m N M (.series x)) ?_ ?_ h3 ?_ ?_ hall.2
        · simp only [MSt.step, h1]; rw [List.drop_append_of_le_length (by omega)]
        · simp only [MSt.step, h2, hM, if_true]
          by_cases hl : b ≤ w.q.length
          · rw [List.drop_append_of_le_length hl]
          · have : b = 0 := by omega
            omega
        · simp only [MSt.step, List.length_append]; omega
        · simp only [MSt.step, hM, if_true, List.length_append]; omega
      · simp only [Bool.not_eq_true] at hM
        refine ih (w.step m N M (.series x)) (v.step m N M (.series x)) ?_ ?_ h3 ?_ ?_ hall.2
        · simp only [MSt.step, h1]; rw [List.drop_append_of_le_length (by omega)]
        · simp only [MSt.step, h2, hM, Bool.false_eq_true, if_false]
        · simp only [MSt.step, List.length_append]; omega
        · simp only [MSt.step, hM, Bool.false_eq_true, if_false]; exact h5
    | query x =>
      refine ih (w.step m N M (.query x)) (v.step m N M (.query x)) h1 ?_ h3 h4 ?_ hall.2
      · simp only [MSt.step, h2]
        rw [List.drop_append_of_le_length (by omega)]
      · simp only [MSt.step, List.length_append]; omega
    | columns k =>
      have e1 : min N (w.s.length - a) = min N w.s.length := by omega
      have e2 : w.s.length - a - N = w.s.length - N - a := by omega
      obtain ⟨r1, r2, r3⟩ := ih (w.step m N M (.columns k)) (v.step m N M (.columns k)) h1 h2 (by
        simp only [MSt.step, lastN_length, l1, h3, e1, e2]
        generalize min k.toNat (min N w.s.length + 1 - m) = z
        omega) h4 h5 hall.2
      refine ⟨r1, r2, fun r c h => r3 r c ?_⟩
      simp only [MSt.step, h, lastN_length, l1, l2, h3, or_assoc, e1, e2]
      refine or_congr_right ?_
      clear e1 e2 ih hall r1 r2 r3 h h1 h2 h3 l1 l2
      generalize min k.toNat (min N w.s.length + 1 - m) = z
      generalize w.s.length = S at *
      generalize w.q.length = T at *
      generalize w.next = e at *
      generalize M.getD N = L at *
      constructor
      · rintro (⟨g1, g2, g3⟩ | ⟨g1, g2, g3, g4⟩)
        · exact ⟨g1, g2, .inl g3⟩
        · refine ⟨by omega, by omega, .inr ⟨by omega, by omega, by omega, by omega⟩⟩
      · rintro ⟨g1, g2, g3 | ⟨g3, g4, g5, g6⟩⟩
        · exact .inl ⟨g1, g2, g3⟩
        · exact .inr ⟨by omega, by omega, by omega, by omega⟩

/-- The calculation that begins later in terms of the whole streams: the values of the pairs are the same, and its calculated pairs are those that are calculated
from then on. -/
theorem C98_since (m N : Nat) (M : Option Nat) (u : MSt α) (a b : Nat) (hg : Gone N M a b u) (us : List (MOp α)) (hall : u.All m N M (fun u op => u.Valid m M op) us) :
    ((u.since a b).run m N M us).s = (u.run m N M us).s.drop a ∧
    ((u.since a b).run m N M us).q = (u.run m N M us).q.drop b ∧
    (∀ r c, (u.run m N M us).done r c ↔ u.done r c ∨ (b ≤ r ∧ a ≤ c ∧ ((u.since a b).run m N M us).done (r - b) (c - a))) ∧
    ∀ (buffer : Option Int) (D : List α → List α → Fl K) (r c : Nat), ((u.since a b).run m N M us).cell D m (bufferOf m M buffer) r c =
      (u.run m N M us).cell D m (bufferOf m M buffer) (r + b) (c + a) := by
  obtain ⟨k1, k2, k3⟩ := since_run m N M u.done a b us u (u.since a b) rfl rfl rfl hg.s hg.q hall
  refine ⟨k1, k2, fun r c => k3 r c (by simp [MSt.since]), fun buffer D r c => ?_⟩
  unfold MSt.cell
  rw [k1, k2, List.drop_drop, List.drop_drop, Nat.add_comm c a, Nat.add_comm r b]
  refine if_congr ?_ rfl rfl
  by_cases hM : M = none
  · rw [(hg.self hM).2]
    push_cast
    constructor <;> rintro ⟨h1, h2⟩ <;> constructor <;> omega
  · have : bufferOf m M buffer = -1 := by unfold bufferOf; rw [if_neg]; simpa using hM
    rw [this]
    constructor <;> rintro ⟨h1, h2⟩ <;> omega

theorem Gone.step {m N : Nat} {M : Option Nat} {a b : Nat} {u : MSt α} (h : Gone N M a b u) (op : MOp α) (hv : u.Valid m M op) : Gone N M a b (u.step m N M op) := by
  have h1 := h.s
  have h2 := h.q
  cases op with
  | series x =>
    refine ⟨?_, ?_, fun hM => ⟨?_, (h.self hM).2⟩⟩
    · simp only [MSt.step, List.length_append]; omega
    · simp only [MSt.step]; split
      · rw [List.length_append]; omega
      · exact h2
    · simp [MSt.step, hM, (h.self hM).1]
  | query x =>
    refine ⟨h1, ?_, fun hM => absurd hM hv⟩
    simp only [MSt.step, List.length_append]; omega
  | columns k => exact ⟨h1, h2, h.self⟩

theorem Gone.run {m N : Nat} {M : Option Nat} {a b : Nat} (us : List (MOp α)) : ∀ u : MSt α, Gone N M a b u → u.All m N M (fun u op => u.Valid m M op) us →
    Gone N M a b (u.run m N M us) := by
  induction us with
  | nil => intro u h _; exact h
  | cons op us ih => intro u h hv; exact ih _ (h.step op hv.1) hv.2

theorem Spec.spans_objects {σ O : Type} (step : σ → O → σ) (R : C → Prop) : ∀ (as : List (SAct P C O)) (u : σ) (ls : List (C × List (Span σ O))),
    (∀ c ids, SAct.consumer c ids ∈ as → R c) → (∀ x ∈ ls, R x.1) → ∀ x ∈ spans step u ls as, R x.1
  | [], _, _, _, h => h
  | .generator _ :: as, u, ls, h2, h => Spec.spans_objects step R as u ls (fun c ids hm => h2 c ids (List.mem_cons_of_mem _ hm)) h
  | .consumer c ids :: as, u, ls, h2, h => Spec.spans_objects step R as u _ (fun c ids hm => h2 c ids (List.mem_cons_of_mem _ hm)) (by
      intro x hx
      rcases List.mem_append.mp hx with hx | hx
      · exact h x hx
      · rw [List.mem_singleton.mp hx]
        exact h2 c ids (by simp))
  | .again k ids :: as, u, ls, h2, h => Spec.spans_objects step R as u _ (fun c ids hm => h2 c ids (List.mem_cons_of_mem _ hm)) (by
      intro x hx
      obtain ⟨i, hi⟩ := List.mem_iff_getElem?.mp hx
      rw [List.getElem?_modify] at hi
      obtain ⟨z, hz, rfl⟩ := Option.map_eq_some_iff.mp hi
      have hz := List.mem_of_getElem? hz
      split <;> exact h z hz)
  | .call op :: as, u, ls, h2, h => Spec.spans_objects step R as _ _ (fun c ids hm => h2 c ids (List.mem_cons_of_mem _ hm)) (by
      intro x hx
      obtain ⟨z, hz, rfl⟩ := List.mem_map.mp hx
      exact h z hz)

/-- The calls of a session are made in the states they are meant for. -/
theorem AreActs.valid {σ O O' : Type} {step : σ → O → σ} {isCall : σ → O → O' → Prop} {fresh : σ → Prop} (Q : σ → O → Prop) (All : σ → List O → Prop)
    (hQ : ∀ u op o, isCall u op o → Q u op) (h0 : ∀ u, All u []) (h1 : ∀ u op l, Q u op → All (step u op) l → All u (op :: l)) :
    ∀ (as : List (SAct (P × Nat) C O)) (bs : List (Act P C O')) (n : Nat) (idss : List (List Nat)) (u : σ), AreActs step isCall fresh n idss u as bs → All u (SAct.calls as) := by
  intro as
  induction as with
  | nil => intro bs n idss u _; exact h0 u
  | cons a as ih =>
    intro bs n idss u h
    cases bs with
    | nil => cases a <;> exact h.elim
    | cons b bs =>
      cases a with
      | generator g =>
        cases b with
        | generator g' d => obtain ⟨-, -, -, h⟩ := h; exact ih bs _ _ u h
        | _ => exact h.elim
      | consumer c ids =>
        cases b with
        | consumer c' ids' => obtain ⟨-, -, h⟩ := h; exact ih bs _ _ u h
        | _ => exact h.elim
      | again k ids =>
        cases b with
        | again k' ids' => obtain ⟨-, -, -, h⟩ := h; exact ih bs _ _ u h
        | _ => exact h.elim
      | call op =>
        cases b with
        | call needed o => obtain ⟨g, -, -, -, h⟩ := h; exact h1 u op _ (hQ u op o g) (ih bs _ _ _ h)
        | _ => exact h.elim

/-- The times of the consumers of a streaming session begin in states in which the query is the series (if it is a self-join), and their calls make sense. -/
theorem streamSpans_valid (π : Nat → α → ℝ) (m N : Nat) (M : Option Nat) (nDim : Nat) (as : List (SAct (GenKind × Nat) C (MOp α))) (bs : List (Act GenKind C (Streaming.Op ℝ)))
    (hacts : AreActs (fun u op => u.step m N M op) (IsStreamCall π m N M nDim (SAct.gens as)) (fun _ => True) 0 [] MSt.init as bs) :
    ∀ x ∈ streamSpans m N M as, (∀ y ∈ x.2, (M = none → y.start.q = y.start.s) ∧ y.start.All m N M (fun u op => u.Valid m M op) y.ops) ∧
      Spec.Linked (fun u op => u.step m N M op) x.2 := by
  refine Spec.spans_valid (I := fun u => M = none → u.q = u.s) ?_ as MSt.init [] ?_ (fun _ => rfl) (by simp) (by simp)
  · intro u op h hv hM
    cases op with
    | series v => simp [MSt.step, hM, h hM]
    | query v => exact absurd hM hv
    | columns k => exact h hM
  · exact hacts.valid (fun u op => u.Valid m M op) (fun u l => u.All m N M (fun u op => u.Valid m M op) l) (fun _ _ _ h => h.2.1) (fun _ => trivial) (fun _ _ _ h1 h2 => ⟨h1, h2⟩)

/-- What a profile object holds that was initialised several times, always for one generator: what was calculated since the last time, in positions that are counted from `a` and
`b`, provided that its shifts were counted from there the first time. -/
theorem profile_lives [LinearOrder K] {G : Type} (gops : GenOps G K) (memF : Nat → List (Fl K)) (memI : Nat → List Int) (hF : ∀ n, (memF n).length = n) (hI : ∀ n, (memI n).length = n)
    (scale : ℚ) (h1 : 1 ≤ scale) (h2 : scale ≤ 2) (m N : Nat) (M : Option Nat) (hm0 : 0 < m) (hN : m ≤ N) (hM : ∀ M', M = some M' → m ≤ M') (buffer : Option Int)
    (D : Nat → List α → List α → Fl K) (a b : Nat) : ∀ (l : List (Span (MSt α) (MOp α))) (y : Span (MSt α) (MOp α)) (o : ShiftingMP K),
      (∀ z ∈ y :: l, (∃ id, z.ids = [id] ∧ ∀ x y, D id x y ≠ .nan) ∧ (M = none → z.start.q = z.start.s) ∧ z.start.All m N M (fun u op => u.Valid m M op) z.ops) →
      Spec.Linked (fun u op => u.step m N M op) (y :: l) → Gone N M a b y.start →
      o.seriesShift = (y.start.s.length - a - N : Nat) → o.queryShift = (y.start.q.length - b - M.getD N : Nat) →
      ∃ z id p, (y :: l).getLast? = some z ∧ z.ids = [id] ∧
        live (ShiftingMP.ops memF memI scale gops) ((M.getD N + 1 - m : Nat) : Int) ((N + 1 - m : Nat) : Int) o
          ((y :: l).map fun y => (y.ids, MSt.allEvents m N M (bufferOf m M buffer) D y.ids y.start y.ops)) = .ok p ∧
        ShowsProfile (D id) m N (bufferOf m M buffer) ((z.start.since a b).run m N M z.ops) p := by
  have hM' : m ≤ M.getD N := by
    cases M with
    | none => exact hN
    | some M' => exact hM M' rfl
  intro l
  induction l with
  | nil =>
    intro y o hl _ hg ho1 ho2
    obtain ⟨⟨id, hi, hD⟩, -, hv⟩ := hl y (by simp)
    obtain ⟨p, p', e1, e2, e3, -⟩ := shifting_feed_from gops memF memI hF hI scale h1 h2 m N M hm0 hN hM (bufferOf m M buffer) D id hD y.ops (y.start.since a b) _ rfl
      (SeenFits.since m (bufferOf m M buffer) (D id) hg) (SameWindows.valid hN hM' y.ops _ _ (.since hg) hv)
    refine ⟨y, id, p', rfl, hi, ?_, e3⟩
    simp only [List.map_cons, List.map_nil, live]
    rw [hi, List.length_singleton, e1 o ⟨ho1, ho2⟩ 1]
    simp only [bind, Except.bind]
    rw [C98_windows m N M buffer D [id] y.start a b hg y.ops hv, e2]
  | cons y' l ih =>
    intro y o hl hk hg ho1 ho2
    obtain ⟨⟨id, hi, hD⟩, -, hv⟩ := hl y (by simp)
    obtain ⟨p, p', e1, e2, -, e4, e5⟩ := shifting_feed_from gops memF memI hF hI scale h1 h2 m N M hm0 hN hM (bufferOf m M buffer) D id hD y.ops (y.start.since a b) _ rfl
      (SeenFits.since m (bufferOf m M buffer) (D id) hg) (SameWindows.valid hN hM' y.ops _ _ (.since hg) hv)
    obtain ⟨g1, g2, -⟩ := C98_since (K := K) m N M y.start a b hg y.ops hv
    have hst : y'.start = y.start.run m N M y.ops := hk.1
    rw [g1, List.length_drop, ← hst] at e4
    rw [g2, List.length_drop, ← hst] at e5
    obtain ⟨z, id', p2, r1, r2, r3, r4⟩ := ih y' p' (fun z hz => hl z (List.mem_cons_of_mem _ hz)) hk.2 (by rw [hst]; exact hg.run y.ops _ hv) e4 e5
    refine ⟨z, id', p2, by rw [List.getLast?_cons_cons]; exact r1, r2, ?_, r4⟩
    rw [List.map_cons, live, hi, List.length_singleton, e1 o ⟨ho1, ho2⟩ 1]
    simp only [bind, Except.bind]
    rw [C98_windows m N M buffer D [id] y.start a b hg y.ops hv, e2]
    exact r3

/-- **C98.** A session with a `StreamingCalculator` in which new `ShiftingMatrixProfileLR` objects are added at any time, for one generator at a time, and may be added again: no act
raises, and every object shows the nearest neighbours among the pairs that were calculated since it was last added. Positions are counted from the beginning of
what the windows held when it was first added, both in the indices and in telling left from right (`C98_late_wrong`); `C98_since` explains `since`. Partial: the
restrictions of `C90_stream_session_partial`; objects must not come from another calculation (`C63_reused_wrong`). -/
theorem C98_late_profile_partial (memE : Nat → List (Fl ℝ)) (hmemE : ∀ n, (memE n).length = n) (memZ : ZN.Mem) (hmemZ : memZ.Ok)
    (memF : Nat → List (Fl ℝ)) (memI : Nat → List Int) (hF : ∀ n, (memF n).length = n) (hI : ∀ n, (memI n).length = n)
    (scale : ℚ) (h1 : 1 ≤ scale) (h2 : scale ≤ 2) (π : Nat → α → ℝ) (m N : Nat) (M : Option Nat) (nDim : Nat) (buffer : Option Int)
    (as : List (SAct (GenKind × Nat) (ShiftingMP ℝ) (MOp α))) (bs : List (Act GenKind (ShiftingMP ℝ) (Streaming.Op ℝ)))
    (ha : StreamArgs m N M nDim buffer (SAct.gens as) [] [])
    (hacts : AreActs (fun u op => u.step m N M op) (IsStreamCall π m N M nDim (SAct.gens as)) (fun _ => True) 0 [] MSt.init as bs) (hcu : CaughtUp m N M [] MSt.init as)
    (hids : ∀ a ∈ as, a.Adds fun ids => ∃ id, ids = [id] ∧ id < (SAct.gens as).length)
    (hfresh : ∀ c ids, SAct.consumer c ids ∈ as → c.seriesShift = 0 ∧ c.queryShift = 0) :
    ∃ cons, streamSession (ShiftingMP.ops memF memI scale (GenKind.ops memE memZ)) (fun k => k.streaming memE memZ) m N (M.map fun M : Nat => (M : Int)) nDim buffer bs = .ok cons ∧
      List.Forall₂ (fun x c => ∃ y z id, x.2.head? = some y ∧ x.2.getLast? = some z ∧ z.ids = [id] ∧ c.2 = [id] ∧
        ShowsProfile (streamDist π m (SAct.gens as) id) m N (bufferOf m M buffer)
          ((z.start.since (y.start.s.length - N) (y.start.q.length - M.getD N)).run m N M z.ops) c.1) (streamSpans m N M as) cons := by
  set ops := ShiftingMP.ops memF memI scale (GenKind.ops memE memZ) with hops
  set Δ := streamDist π m (SAct.gens as) with hΔ
  have hlast : ∀ x ∈ streamSpans m N M as, ∃ y z id p, x.2.head? = some y ∧ x.2.getLast? = some z ∧ z.ids = [id] ∧
      live ops ((M.getD N + 1 - m : Nat) : Int) ((N + 1 - m : Nat) : Int) x.1 (x.2.map fun y => (y.ids, MSt.allEvents m N M (bufferOf m M buffer) Δ y.ids y.start y.ops)) = .ok p ∧
      ShowsProfile (Δ id) m N (bufferOf m M buffer) ((z.start.since (y.start.s.length - N) (y.start.q.length - M.getD N)).run m N M z.ops) p := by
    intro x hx
    have hf := Spec.spans_objects _ (fun c : ShiftingMP ℝ => c.seriesShift = 0 ∧ c.queryShift = 0) as MSt.init [] hfresh (by simp) x hx
    obtain ⟨hv, hk⟩ := streamSpans_valid π m N M nDim as bs hacts x hx
    obtain ⟨hne, hi⟩ := Spec.spans_mem _ _ (fun _ => True) as MSt.init [] hids (fun _ _ => trivial) (by simp) x hx
    cases hxl : x.2 with
    | nil => exact absurd hxl hne
    | cons y l =>
      rw [hxl] at hv hk hi
      have hs := (hv y (by simp)).1
      obtain ⟨z, id, p, r1, r2, r3, r4⟩ := profile_lives (GenKind.ops memE memZ) memF memI hF hI scale h1 h2 m N M ha.pos ha.series ha.query buffer Δ
        (y.start.s.length - N) (y.start.q.length - M.getD N) l y x.1 (by
          intro z hz
          obtain ⟨id, e1, e2⟩ := (hi z hz).1
          exact ⟨⟨id, e1, streamDist_ne_nan π m _ id e2⟩, hv z hz⟩) hk
        ⟨le_rfl, le_rfl, fun h => ⟨hs h, by rw [hs h, h]; rfl⟩⟩ (by rw [hf.1]; omega) (by rw [hf.2]; omega)
      exact ⟨y, z, id, p, rfl, r1, r2, r3, r4⟩
  obtain ⟨cons, r1, r2⟩ := C90_stream_session_partial memE hmemE memZ hmemZ ops rfl π m N M nDim buffer as bs ha hacts hcu (by
    rw [streamLives_spans]
    intro x hx
    obtain ⟨z, hz, rfl⟩ := List.mem_map.mp hx
    obtain ⟨_, _, _, p, -, -, -, g, -⟩ := hlast z hz
    exact ⟨_, g⟩)
  refine ⟨cons, r1, ?_⟩
  rw [streamLives_spans, List.forall₂_map_left_iff, forall₂_iff_getElem?] at r2
  rw [forall₂_iff_getElem?]
  refine ⟨r2.1, fun i x c hx hc => ?_⟩
  obtain ⟨g1, g2⟩ := r2.2 i x c hx hc
  obtain ⟨y, z, id, p, g3, g4, g5, g6, g7⟩ := hlast x (List.mem_of_getElem? hx)
  dsimp only at g1 g2
  rw [g6] at g2
  refine ⟨y, z, id, g3, g4, g5, ?_, by rw [← Except.ok.inj g2]; exact g7⟩
  rw [g1, Life.ids, List.getLast?_map, g4]
  exact g5

instance : DecidableEq (List (List (Fl ℚ) × List Int × List Int)) :=
  haveI : DecidableEq (List (Fl ℚ)) := inferInstance
  inferInstance

/-- Squared Euclidean distances of exact data, profiles that are added at any time. -/
def exLateRun (bs : List (Act Unit (ShiftingMP ℚ) (Streaming.Op ℚ))) : Except PyErr (List (List (Fl ℚ) × List Int × List Int)) :=
  (streamSession (ShiftingMP.ops (fun n => List.replicate n .nan) (fun n => List.replicate n 77) 2 (Eucl.genOps zeroMem (fun x : ℚ => x)))
    (fun _ : Unit => Eucl.streaming zeroMem 2) 1 3 (some 3) 1 none bs).map fun l => l.map fun c =>
      (MP.merged c.1.left.mp.items c.1.right.mp.items, c.1.left.pi.items, c.1.right.pi.items)

/-- Indices are not positions in the streams if the profile was added late: series 1 5 2 8, query 9 9 4 5 3, windows of 3 points, `m = 1`; one profile is added at the
beginning and one when all points have been appended, then all columns are calculated. The points of the query window are at the positions 2, 3 and 4. The second profile
shows them as 0, 1 and 2, and since the series has only dropped one point and the query two, it shows neighbours as left that the first shows as right. -/
theorem C98_late_wrong : exLateRun [.generator () 0, .consumer exProfile [0], .call [0] (.series (.d2 [[.fin 1, .fin 5, .fin 2, .fin 8]] 4)),
      .call [0] (.query (.d2 [[.fin 9, .fin 9, .fin 4, .fin 5, .fin 3]] 5)), .consumer exProfile [0], .call [0] (.columns (fun _ => false) (.int 3))] =
    .ok [([.fin 0, .fin 1, .fin 9], [-1, 2, 3], [3, 4, 4]), ([.fin 0, .fin 1, .fin 9], [0, 0, 1], [1, 2, -1])] := by
  decide +kernel

/-- An object that is added again goes on counting from where it was first added: here the first profile is added at the beginning and again when all points have been
appended and the first column has been calculated, the second profile only then. Column 0 is calculated before and is not shown by either. The first shows positions in the
streams (4, 5: points 3 and 6 of the query), the second positions in the windows at that time. -/
example : exLateRun [.generator () 0, .consumer exProfile [0], .call [0] (.series (.d2 [[.fin 1, .fin 5, .fin 2, .fin 8]] 4)),
      .call [0] (.query (.d2 [[.fin 9, .fin 9, .fin 4, .fin 5, .fin 3]] 5)), .call [0] (.columns (fun _ => false) (.int 1)), .again 0 [0], .consumer exProfile [0],
      .call [0] (.query (.d1 [.fin 6])), .call [0] (.columns (fun _ => false) (.int 3))] =
    .ok [([.pinf, .fin 1, .fin 4], [-1, -1, 3], [-1, 4, 5]), ([.pinf, .fin 1, .fin 4], [-1, 1, 1], [-1, 2, 3])] := by
  decide +kernel

/-- A session: a consumer of the first generator; two more generators; points; a consumer of the third generator; column 0, then an interrupt; the first consumer
again, now for the second generator; more points and columns; a fourth generator, points that fill the windows, a consumer of the fourth generator
and two columns. -/
noncomputable def exLateActs {C : Type} (c : C) : List (SAct (GenKind × Nat) C (MOp (ℤ × ℤ))) :=
  [.generator (.euclidean 2, 1), .consumer c [0], .call (.columns 1), .generator (.znorm 0 (3 / 2), 0), .generator (.znorm (1 / 10) 1, 1),
   .call (.series [(1, 2), (5, 0), (2, 7), (8, 1), (3, 3)]), .call (.query [(4, 1), (4, 6), (7, 2)]), .consumer c [2], .call (.columns 1), .again 0 [1],
   .call (.series [(9, 9)]), .call (.columns 3), .call (.query [(0, 5)]), .call (.columns 3), .generator (.euclidean 1, 0),
   .call (.query [(1, 1), (2, 0), (8, 3)]), .call (.series [(4, 4), (6, 1), (2, 2), (7, 5)]), .consumer c [3], .call (.columns 2)]

noncomputable def exLateActCalls {C : Type} (c : C) : List (Act GenKind C (Streaming.Op ℝ)) :=
  [.generator (.euclidean 2) 1, .consumer c [0], .call [0] (.columns (fun _ => false) (.float (.fin (1 / 3)))), .generator (.znorm 0 (3 / 2)) 0,
   .generator (.znorm (1 / 10) 1) 1, .call [0] (.series (.d2 [[.fin 1, .fin 5, .fin 2, .fin 8, .fin 3], [.fin 2, .fin 0, .fin 7, .fin 1, .fin 3]] 5)),
   .call [0] (.query (.d2 [[.fin 4, .fin 4, .fin 7], [.fin 1, .fin 6, .fin 2]] 3)), .consumer c [2], .call [0, 2] (.columns (fun c => c == 1) (.float (.fin 1))),
   .again 0 [1], .call [1, 2] (.series (.d1 [.fin 9, .fin 9])), .call [1, 2] (.columns (fun _ => false) (.int 3)), .call [2, 1] (.query (.d1 [.fin 0, .fin 5])),
   .call [1, 2] (.columns (fun _ => true) (.int 3)), .generator (.euclidean 1) 0, .call [1, 2] (.query (.d2 [[.fin 1, .fin 2, .fin 8], [.fin 1, .fin 0, .fin 3]] 3)),
   .call [1, 2] (.series (.d2 [[.fin 4, .fin 6, .fin 2, .fin 7], [.fin 4, .fin 1, .fin 2, .fin 5]] 4)), .consumer c [3],
   .call [3, 1, 2] (.columns (fun _ => false) (.int 2))]

theorem exLateActs_args {C : Type} (c : C) : StreamArgs 2 4 (some 3) 2 none (SAct.gens (exLateActs c)) [] [] := by
  refine ⟨by decide, by decide, by simp, by simp, ?_, ?_, by simp, by decide, by simp⟩
  · simp [SAct.gens, exLateActs, GenKind.ScaleOk]; norm_num
  · simp [SAct.gens, exLateActs]

theorem exLateActs_calls {C : Type} (c : C) : AreActs (fun u op => u.step 2 4 (some 3) op) (IsStreamCall exChan 2 4 (some 3) 2 (SAct.gens (exLateActs c)))
    (fun _ => True) 0 [] MSt.init (exLateActs c) (exLateActCalls c) := by
  have hok := exStreamCase_ok (idss := [[0], [2]]) (by simp) (by simp) (by simp)
  obtain ⟨c1, c2, c3, c4, c5, c6, c7, c8, -⟩ := hok.calls
  obtain ⟨v1, v2, v3, v4, v5, v6, v7, v8, -⟩ := hok.valid
  have key : ∀ s q : List (ℤ × ℤ), ∀ g ∈ SAct.gens (exLateActs c), g.1.Good 2 (lastN 4 (s.map (exChan g.2))) (lastN 3 (q.map (exChan g.2))) := by
    intro s q g hg
    simp only [SAct.gens, exLateActs, List.mem_cons, List.not_mem_nil, or_false] at hg
    rcases hg with rfl | rfl | rfl | rfl
    · refine noTiny_int _ _ _ ?_ ?_ <;>
      · intro x hx
        obtain ⟨z, -, rfl⟩ := List.mem_map.mp (List.mem_of_mem_drop (by simpa [lastN] using hx))
        exact ⟨z.2, by simp [exChan]⟩
    · trivial
    · trivial
    · refine noTiny_int _ _ _ ?_ ?_ <;>
      · intro x hx
        obtain ⟨z, -, rfl⟩ := List.mem_map.mp (List.mem_of_mem_drop (by simpa [lastN] using hx))
        exact ⟨z.1, by simp [exChan]⟩
  refine ⟨trivial, rfl, rfl, rfl, rfl, ⟨c1, v1, fun _ _ => key _ _⟩, by simp, by simp, by simp, trivial, rfl, by simp, trivial, rfl, by simp,
    ⟨c2, v2, fun _ _ => key _ _⟩, by simp, by simp, by simp, ⟨c3, v3, fun _ _ => key _ _⟩, by simp, by simp, by simp, rfl, rfl,
    ⟨c4, v4, fun _ _ => key _ _⟩, by simp, by simp, by simp, rfl, rfl, by simp,
    ⟨c5, v5, fun _ _ => key _ _⟩, by simp, ?_, by simp, ⟨c6, v6, fun _ _ => key _ _⟩, by simp, ?_, by simp, ⟨c7, v7, fun _ _ => key _ _⟩, by simp, ?_, by simp,
    ⟨c8, v8, fun _ _ => key _ _⟩, by simp, ?_, by simp, trivial, rfl, rfl, ⟨.inl ?_, ?_, fun _ _ => key _ _⟩, by simp, ?_, by simp,
    ⟨.inl ?_, ?_, fun _ _ => key _ _⟩, by simp, ?_, by simp, rfl, rfl, ⟨⟨2, .inl rfl, by simp, .inl rfl⟩, ?_, fun _ _ => key _ _⟩, by simp, ?_, by simp, trivial⟩
  on_goal 5 => simp [exChan, List.range_succ]
  on_goal 5 => simp [MSt.Valid]
  on_goal 6 => simp [exChan, List.range_succ]
  on_goal 6 => simp [MSt.Valid]
  on_goal 7 => simp [MSt.Valid, MSt.step, MSt.init]
  all_goals
    intro id
    simp
    try omega

theorem exLateActs_filled {C : Type} (c : C) : CaughtUp 2 4 (some 3) [] MSt.init (exLateActs c) := by
  simp [CaughtUp, exLateActs, Filled, MSt.step, MSt.init]

/-- The states in which the three profiles were last added (points of the series and the query, next column) and what is said about the position from which they count: the
first was added at the very beginning and again when one point of the series had left the window, the second when one had left, the third at the end. -/
example (c : ShiftingMP ℝ) : (streamSpans 2 4 (some 3) (exLateActs c)).map (fun x => (x.2.map fun y => (y.ids, y.start.s.length, y.start.q.length, y.start.next, y.ops.length))) =
    [[([0], 0, 0, 0, 4), ([1], 5, 3, 2, 7)], [([2], 5, 3, 0, 8)], [([3], 10, 7, 5, 1)]] := rfl

example (c : ShiftingMP ℝ) (hc : c.seriesShift = 0 ∧ c.queryShift = 0) : ∃ a b d, streamSession (ShiftingMP.ops (fun n => List.replicate n .nan) (fun n => List.replicate n 77) 2
      (GenKind.ops exStreamCase.memE exStreamCase.memZ)) (fun k => k.streaming exStreamCase.memE exStreamCase.memZ) 2 4 (some 3) 2 none (exLateActCalls c) =
        .ok [(a, [1]), (b, [2]), (d, [3])] := by
  have hok := exStreamCase_ok (idss := [[0], [2]]) (by simp) (by simp) (by simp)
  obtain ⟨cons, h1, h2⟩ := C98_late_profile_partial exStreamCase.memE hok.memE exStreamCase.memZ hok.memZ (fun n => List.replicate n .nan) (fun n => List.replicate n 77)
    (by simp) (by simp) 2 (by norm_num) (by norm_num) exChan 2 4 (some 3) 2 none (exLateActs c) (exLateActCalls c) (exLateActs_args c) (exLateActs_calls c) (exLateActs_filled c)
    (by simp [exLateActs, SAct.Adds, SAct.gens]) (by
      intro c' ids h
      simp [exLateActs] at h
      rcases h with ⟨rfl, -⟩ | ⟨rfl, -⟩ | ⟨rfl, -⟩ <;> exact hc)
  obtain ⟨⟨a, ia⟩, l, ⟨_, y, i, -, e1, e2, e3, -⟩, h3, rfl⟩ := List.forall₂_cons_left_iff.mp h2
  obtain ⟨⟨b, ib⟩, l, ⟨_, z, j, -, f1, f2, f3, -⟩, h4, rfl⟩ := List.forall₂_cons_left_iff.mp h3
  obtain ⟨⟨d, id⟩, l, ⟨_, w, k, -, g1, g2, g3, -⟩, h5, rfl⟩ := List.forall₂_cons_left_iff.mp h4
  obtain rfl := List.forall₂_nil_left_iff.mp h5
  cases Option.some.inj e1
  cases Option.some.inj f1
  cases Option.some.inj g1
  cases e2; cases f2; cases g2
  dsimp only at e3 f3 g3
  subst e3 f3 g3
  exact ⟨a, b, d, h1⟩

/-- `C98_windows` and `C98_since`: four points of the series and five of the query, in windows of three and four, so that one point of each has left. -/
example := C98_windows (K := ℚ) 2 3 (some 4) none (fun _ _ _ => .fin 1) [0] (⟨[1, 5, 2, 8], [9, 9, 4, 5, 3], 1, fun _ _ => False⟩ : MSt ℤ) 1 1 ⟨by decide, by decide, by simp⟩
  [.series [7], .columns 2] ⟨by simp [MSt.Valid], by simp [MSt.Valid, MSt.step], trivial⟩

example := C98_since (K := ℚ) 2 3 (some 4) (⟨[1, 5, 2, 8], [9, 9, 4, 5, 3], 1, fun _ _ => False⟩ : MSt ℤ) 1 1 ⟨by decide, by decide, by simp⟩
  [.series [7], .columns 2] ⟨by simp [MSt.Valid], by simp [MSt.Valid, MSt.step], trivial⟩

end Verif
