import Verif.Lemmas.StreamSeen
import Verif.Lemmas.Sessions

/-!
What a streaming calculation delivers from some time on depends only on what the windows hold at that time.
-/

namespace Verif
open Spec
variable {α K : Type}

/-- What a client has done, seen by someone who does not know the first `a` points of the series and `b` points of the query and nothing of what has been
calculated. -/
def Spec.MSt.since (a b : Nat) (u : MSt α) : MSt α := ⟨u.s.drop a, u.q.drop b, u.next - a, fun _ _ => False⟩

/-- The first `a` points of the series and `b` points of the query have left the windows. -/
structure Gone (N : Nat) (M : Option Nat) (a b : Nat) (u : MSt α) : Prop where
  s : a ≤ u.s.length - N
  q : b ≤ u.q.length - M.getD N
  self : M = none → u.q = u.s ∧ a = b

/-- The windows hold the same. -/
structure SameWindows (N : Nat) (M : Option Nat) (u v : MSt α) : Prop where
  s : lastN N u.s = lastN N v.s
  q : lastN (M.getD N) u.q = lastN (M.getD N) v.q
  next : u.next - (u.s.length - N) = v.next - (v.s.length - N)
  selfU : M = none → u.q = u.s
  selfV : M = none → v.q = v.s

theorem SameWindows.lenS {N : Nat} {M : Option Nat} {u v : MSt α} (h : SameWindows N M u v) : min N u.s.length = min N v.s.length := by
  simpa using congrArg List.length h.s

theorem SameWindows.lenQ {N : Nat} {M : Option Nat} {u v : MSt α} (h : SameWindows N M u v) : min (M.getD N) u.q.length = min (M.getD N) v.q.length := by
  simpa using congrArg List.length h.q

theorem lastN_congr_append (n : Nat) (a b v : List α) (h : lastN n a = lastN n b) : lastN n (a ++ v) = lastN n (b ++ v) := by
  rw [← lastN_lastN_append n a, h, lastN_lastN_append]

theorem moved_congr (w a b n : Nat) (h : min w a = min w b) : moved w a n = moved w b n := by unfold moved; omega

theorem lastN_drop_le (n a : Nat) (l : List α) (h : a ≤ l.length - n) : lastN n (l.drop a) = lastN n l := by
  simp only [lastN, List.length_drop, List.drop_drop]
  congr 1; omega

theorem SameWindows.since {N : Nat} {M : Option Nat} {a b : Nat} {u : MSt α} (h : Gone N M a b u) : SameWindows N M u (u.since a b) := by
  have h1 := h.s
  refine ⟨(lastN_drop_le _ _ _ h.s).symm, (lastN_drop_le _ _ _ h.q).symm, ?_, fun hM => (h.self hM).1, ?_⟩
  · simp only [MSt.since, List.length_drop]; omega
  · intro hM; simp [MSt.since, (h.self hM).1, (h.self hM).2]

theorem SameWindows.events {m N : Nat} {M : Option Nat} {b : Int} {u v : MSt α} (h : SameWindows N M u v) (hb : M ≠ none → b = -1)
    (D : Nat → List α → List α → Fl K) (ids : List Nat) (op : MOp α) : u.events m N M b D ids op = v.events m N M b D ids op := by
  cases op with
  | series x => simp only [MSt.events, moved_congr N _ _ x.length h.lenS]
  | query x => simp only [MSt.events, moved_congr (M.getD N) _ _ x.length h.lenQ]
  | columns k =>
    simp only [MSt.events, ← h.next, ← h.s, ← h.q]
    apply List.map_congr_left
    intro i _
    congr 1
    apply List.map_congr_left
    intro id _
    apply List.map_congr_left
    intro r _
    unfold MSt.cell
    have e1 := win_lastN m N u.s (u.next - (u.s.length - N) + i)
    have e2 := win_lastN m N v.s (u.next - (u.s.length - N) + i)
    have e3 := win_lastN m (M.getD N) u.q r
    have e4 := win_lastN m (M.getD N) v.q r
    rw [h.s] at e1; rw [h.q] at e3
    have e5 := e1.symm.trans e2
    have e6 := e3.symm.trans e4
    unfold win at e5 e6
    rw [e5, e6]
    refine if_congr ?_ rfl rfl
    by_cases hM : M = none
    · subst hM
      rw [h.selfU rfl, h.selfV rfl]
      simp only [Option.getD_none]
      push_cast
      constructor <;> rintro ⟨h1, h2⟩ <;> constructor <;> omega
    · rw [hb hM]
      constructor <;> rintro ⟨h1, h2⟩ <;> omega

theorem SameWindows.step {m N : Nat} {M : Option Nat} {u v : MSt α} (h : SameWindows N M u v) (op : MOp α) (hop : ∀ x, op = .query x → M ≠ none) :
    SameWindows N M (u.step m N M op) (v.step m N M op) := by
  have l1 := h.lenS
  have l2 := h.next
  cases op with
  | series x =>
    refine ⟨lastN_congr_append N _ _ x h.s, ?_, ?_, ?_, ?_⟩
    · simp only [MSt.step]
      split
      · exact lastN_congr_append _ _ _ x h.q
      · exact h.q
    · simp only [MSt.step, List.length_append]; omega
    · intro hM; simp [MSt.step, hM, h.selfU hM]
    · intro hM; simp [MSt.step, hM, h.selfV hM]
  | query x =>
    refine ⟨h.s, lastN_congr_append _ _ _ x h.q, h.next, fun hM => absurd hM (hop x rfl), fun hM => absurd hM (hop x rfl)⟩
  | columns k =>
    refine ⟨h.s, h.q, ?_, h.selfU, h.selfV⟩
    simp only [MSt.step, lastN_length]
    omega

theorem SameWindows.allEvents {m N : Nat} {M : Option Nat} {b : Int} (hb : M ≠ none → b = -1) (D : Nat → List α → List α → Fl K) (ids : List Nat) (us : List (MOp α)) :
    ∀ u v : MSt α, SameWindows N M u v → u.All m N M (fun u op => u.Valid m M op) us → MSt.allEvents m N M b D ids u us = MSt.allEvents m N M b D ids v us := by
  induction us with
  | nil => intro _ _ _ _; rfl
  | cons op us ih =>
    intro u v h hv
    rw [MSt.allEvents, MSt.allEvents, h.events hb, ih _ _ (h.step op fun x e => by subst e; exact hv.1) hv.2]

theorem SameWindows.valid {m N : Nat} {M : Option Nat} (hN : m ≤ N) (hM : m ≤ M.getD N) (us : List (MOp α)) :
    ∀ u v : MSt α, SameWindows N M u v → u.All m N M (fun u op => u.Valid m M op) us → v.All m N M (fun u op => u.Valid m M op) us := by
  induction us with
  | nil => intro _ _ _ _; trivial
  | cons op us ih =>
    intro u v h hv
    refine ⟨?_, ih _ _ (h.step op fun x e => by subst e; exact hv.1) hv.2⟩
    have l1 := h.lenS
    have l2 := h.lenQ
    cases op with
    | series x => trivial
    | query x => exact hv.1
    | columns k =>
      have : m ≤ u.s.length → m ≤ u.q.length := hv.1
      show m ≤ v.s.length → m ≤ v.q.length
      omega

theorem SeenFits.since (m : Nat) {N : Nat} {M : Option Nat} {a b : Nat} (e : Int) (D : List α → List α → Fl K) {u : MSt α} (h : Gone N M a b u) :
    SeenFits m N M e D (u.since a b) ⟨u.s.length - a - N, u.q.length - b - M.getD N, []⟩ := by
  refine ⟨by simp [MSt.since], by simp [MSt.since], ?_, ?_, ?_, by simp⟩
  · intro hM; simp [MSt.since, (h.self hM).1, (h.self hM).2]
  · simp [MSt.since]
  · simp [MSt.since]

/-- Each time begins where the one before ends. -/
def Spec.Linked {σ O : Type} (step : σ → O → σ) : List (Span σ O) → Prop
  | y :: z :: l => z.start = y.ops.foldl step y.start ∧ Spec.Linked step (z :: l)
  | _ => True

theorem Spec.Linked.snoc {σ O : Type} {step : σ → O → σ} (x : Span σ O) : ∀ l : List (Span σ O), Spec.Linked step l →
    (∀ y, l.getLast? = some y → y.ops.foldl step y.start = x.start) → Spec.Linked step (l ++ [x])
  | [], _, _ => trivial
  | [y], _, h => ⟨(h y rfl).symm, trivial⟩
  | y :: z :: l, h1, h2 => ⟨h1.1, Spec.Linked.snoc x (z :: l) h1.2 (fun v hv => h2 v (by rw [List.getLast?_cons_cons]; exact hv))⟩

theorem Spec.Linked.grow {σ O : Type} {step : σ → O → σ} (op : O) : ∀ l : List (Span σ O), Spec.Linked step l → Spec.Linked step (Span.grow op l)
  | [], _ => trivial
  | [_], _ => trivial
  | [y, z], h => ⟨h.1, trivial⟩
  | y :: z :: x :: l, h => ⟨h.1, Spec.Linked.grow op (z :: x :: l) h.2⟩

/-- The calls of a time, in the state at its beginning. -/
theorem Spec.spans_valid {P C : Type} {Q : MSt α → MOp α → Prop} {I : MSt α → Prop} {m N : Nat} {M : Option Nat} (hI : ∀ u op, I u → Q u op → I (u.step m N M op)) :
    ∀ (as : List (SAct P C (MOp α))) (u : MSt α) (ls : List (C × List (Span (MSt α) (MOp α)))),
    u.All m N M Q (SAct.calls as) → I u →
    (∀ x ∈ ls, (∀ y ∈ x.2, I y.start ∧ y.start.All m N M Q y.ops) ∧ Spec.Linked (fun u op => u.step m N M op) x.2) → (∀ x ∈ ls, ∀ y, x.2.getLast? = some y → y.start.run m N M y.ops = u) →
    ∀ x ∈ spans (fun u op => u.step m N M op) u ls as, (∀ y ∈ x.2, I y.start ∧ y.start.All m N M Q y.ops) ∧ Spec.Linked (fun u op => u.step m N M op) x.2 := by
  intro as
  induction as with
  | nil => intro u ls _ _ h _; exact h
  | cons a as ih =>
    intro u ls hQ hu h1 h2
    cases a with
    | generator g => exact ih u ls hQ hu h1 h2
    | consumer c ids =>
      refine ih u _ hQ hu ?_ ?_
      · intro x hx
        rcases List.mem_append.mp hx with hx | hx
        · exact h1 x hx
        · rw [List.mem_singleton.mp hx]
          refine ⟨fun y hy => ?_, trivial⟩
          rw [List.mem_singleton.mp hy]
          exact ⟨hu, trivial⟩
      · intro x hx
        rcases List.mem_append.mp hx with hx | hx
        · exact h2 x hx
        · rw [List.mem_singleton.mp hx]
          intro y hy
          simp only [List.getLast?_singleton, Option.some.injEq] at hy
          rw [← hy]; rfl
    | again k ids =>
      refine ih u _ hQ hu ?_ ?_
      · intro x hx
        obtain ⟨i, hi⟩ := List.mem_iff_getElem?.mp hx
        rw [List.getElem?_modify] at hi
        obtain ⟨z, hz, rfl⟩ := Option.map_eq_some_iff.mp hi
        have hz := List.mem_of_getElem? hz
        by_cases hki : k = i
        · simp only [hki, if_true]
          refine ⟨fun y hy => ?_, (h1 z hz).2.snoc _ _ (h2 z hz)⟩
          rcases List.mem_append.mp hy with hy | hy
          · exact (h1 z hz).1 y hy
          · rw [List.mem_singleton.mp hy]; exact ⟨hu, trivial⟩
        · simp only [hki, if_false]
          exact h1 z hz
      · intro x hx y hy
        obtain ⟨i, hi⟩ := List.mem_iff_getElem?.mp hx
        rw [List.getElem?_modify] at hi
        obtain ⟨z, hz, rfl⟩ := Option.map_eq_some_iff.mp hi
        by_cases hki : k = i
        · simp only [hki, if_true, List.getLast?_append, List.getLast?_singleton, Option.some_or, Option.some.injEq] at hy
          rw [← hy]; rfl
        · simp only [hki, if_false] at hy
          exact h2 z (List.mem_of_getElem? hz) y hy
    | call op =>
      have snoc : ∀ (l : List (MOp α)) (w : MSt α), w.All m N M Q l → Q (w.run m N M l) op → w.All m N M Q (l ++ [op]) := by
        intro l
        induction l with
        | nil => intro w _ h; exact ⟨h, trivial⟩
        | cons o l ihl => intro w h3 h4; exact ⟨h3.1, ihl _ h3.2 h4⟩
      refine ih _ _ hQ.2 (hI u op hu hQ.1) ?_ ?_
      · intro x hx
        obtain ⟨z, hz, rfl⟩ := List.mem_map.mp hx
        have key : ∀ l : List (Span (MSt α) (MOp α)), (∀ y ∈ l, I y.start ∧ y.start.All m N M Q y.ops) → (∀ y, l.getLast? = some y → y.start.run m N M y.ops = u) →
            ∀ y ∈ Span.grow op l, I y.start ∧ y.start.All m N M Q y.ops := by
          intro l
          induction l with
          | nil => intro _ _ y hy; simp [Span.grow] at hy
          | cons a l ihl =>
            intro g1 g2 y hy
            cases l with
            | nil =>
              rw [Span.grow, List.mem_singleton] at hy
              subst hy
              have := g1 a (by simp)
              exact ⟨this.1, snoc _ _ this.2 (by rw [g2 a (by simp)]; exact hQ.1)⟩
            | cons b l =>
              rcases List.mem_cons.mp hy with rfl | hy
              · exact g1 _ (by simp)
              · exact ihl (fun y hy => g1 y (List.mem_cons_of_mem _ hy)) (fun y hy => g2 y (by rw [List.getLast?_cons_cons]; exact hy)) y hy
        exact ⟨key z.2 (h1 z hz).1 (h2 z hz), (h1 z hz).2.grow op _⟩
      · intro x hx y hy
        obtain ⟨z, hz, rfl⟩ := List.mem_map.mp hx
        obtain ⟨v, g1, rfl⟩ := Span.grow_last op z.2 y hy
        simp [MSt.run, ← h2 z hz v g1]

end Verif
