import Verif.Model.Util
import Verif.Spec.Stream
import Mathlib.Tactic.Ring
import Mathlib.Tactic.Linarith

/-!
# C11: `sliding_window_view`
-/

namespace Verif
open Spec

/-- `i` is a valid index vector for an array of the given shape. -/
def InShape : List Int → List Int → Prop
  | i :: is, s :: ss => 0 ≤ i ∧ i < s ∧ InShape is ss
  | [], [] => True
  | _, _ => False

theorem InShape.length {i s : List Int} (h : InShape i s) : i.length = s.length := by
  induction i generalizing s with
  | nil => cases s <;> simp [InShape] at *
  | cons a as ih => cases s with
    | nil => simp [InShape] at h
    | cons b bs => simp [ih h.2.2]

/-- The source position addressed by window `i`, element `j`: `i*step + j`, per dimension. -/
def srcIndex (i step j : List Int) : List Int := List.zipWith (· + ·) (List.zipWith (· * ·) i step) j

/-- The effective step of a call. -/
def effStep (x : Strided) (step : Option (List Int)) : List Int := step.getD (x.shape.map fun _ => 1)

theorem dot_append (a b c d : List Int) (h : a.length = c.length) : dot (a ++ b) (c ++ d) = dot a c + dot b d := by
  induction a generalizing c with
  | nil => cases c with
    | nil => simp [dot]
    | cons => simp at h
  | cons x xs ih => cases c with
    | nil => simp at h
    | cons y ys => simp only [List.cons_append, dot]; rw [ih ys (by simpa using h)]; ring

theorem dot_src (i j step s : List Int) (h1 : i.length = s.length) (h2 : j.length = s.length) (h3 : step.length = s.length) :
    dot (srcIndex i step j) s = dot i (List.zipWith (· * ·) s step) + dot j s := by
  induction s generalizing i j step with
  | nil =>
    have := List.length_eq_zero_iff.mp h1
    have := List.length_eq_zero_iff.mp h2
    subst_vars; rfl
  | cons a as ih =>
    match i, j, step, h1, h2, h3 with
    | i :: is, j :: js, st :: sts, h1, h2, h3 =>
      simp only [srcIndex, List.zipWith_cons_cons, dot] at *
      rw [ih is js sts (by simpa using h1) (by simpa using h2) (by simpa using h3)]
      ring

/-- What the guards of lines 209-231 amount to. -/
theorem slidingWindowView_ok_iff (x : Strided) (shape : List Int) (step : Option (List Int)) (v : Strided) :
    slidingWindowView x shape step = .ok v ↔
      (x.shape.length = shape.length ∧ (∀ s ∈ shape, 0 < s) ∧ (effStep x step).length = x.shape.length ∧
        (∀ s ∈ effStep x step, 0 < s) ∧
        (∀ o ∈ List.zipWith (fun d st => d / st + 1) (List.zipWith (· - ·) x.shape shape) (effStep x step), 0 < o)) ∧
      v = { shape := List.zipWith (fun d st => d / st + 1) (List.zipWith (· - ·) x.shape shape) (effStep x step) ++ shape,
            strides := List.zipWith (· * ·) x.strides (effStep x step) ++ x.strides } := by
  unfold slidingWindowView effStep
  by_cases h1 : x.shape.length = shape.length
  · by_cases h2 : ∃ s ∈ shape, s ≤ 0
    · have h2' : ¬ ∀ s ∈ shape, 0 < s := by push Not; exact h2
      have : shape.any (fun s => decide (s ≤ 0)) = true := by simpa using h2
      simp [h1, this, h2', bind, Except.bind, throw, throwThe, MonadExceptOf.throw]
    · have h2' : ∀ s ∈ shape, 0 < s := by push Not at h2; exact h2
      have t2 : shape.any (fun s => decide (s ≤ 0)) = false := by simpa using h2'
      cases step with
      | none =>
        simp only [t2, Option.getD_none]
        have l1 : (x.shape.map fun _ => (1 : Int)).length = x.shape.length := by simp
        have l2 : ∀ s ∈ (x.shape.map fun _ => (1 : Int)), 0 < s := by simp
        generalize (x.shape.map fun _ => (1 : Int)) = step at *
        generalize ho : List.zipWith (fun d st => d / st + 1) (List.zipWith (· - ·) x.shape shape) step = o
        by_cases h3 : ∃ s ∈ o, s ≤ 0
        · have h3' : ¬ ∀ s ∈ o, 0 < s := by push Not; exact h3
          have : o.any (fun s => decide (s ≤ 0)) = true := by simpa using h3
          simp [h1, ho, this, h3', bind, Except.bind, pure, Except.pure, throw, throwThe, MonadExceptOf.throw]
        · have h3' : ∀ s ∈ o, 0 < s := by push Not at h3; exact h3
          have : o.any (fun s => decide (s ≤ 0)) = false := by simpa using h3'
          simp [ho, this, h1, bind, Except.bind, pure, Except.pure]
          constructor
          · rintro rfl; exact ⟨⟨h2', by omega, l2, h3'⟩, rfl⟩
          · rintro ⟨_, rfl⟩; rfl
      | some step =>
        simp only [h1, t2, Option.getD_some]
        by_cases h4 : shape.length = step.length
        · by_cases h5 : ∃ s ∈ step, s ≤ 0
          · have h5' : ¬ ∀ s ∈ step, 0 < s := by push Not; exact h5
            have : step.any (fun s => decide (s ≤ 0)) = true := by simpa using h5
            simp [h4, this, h5', bind, Except.bind, throw, throwThe, MonadExceptOf.throw]
          · have h5' : ∀ s ∈ step, 0 < s := by push Not at h5; exact h5
            have t5 : step.any (fun s => decide (s ≤ 0)) = false := by simpa using h5'
            generalize ho : List.zipWith (fun d st => d / st + 1) (List.zipWith (· - ·) x.shape shape) step = o
            by_cases h3 : ∃ s ∈ o, s ≤ 0
            · have h3' : ¬ ∀ s ∈ o, 0 < s := by push Not; exact h3
              have : o.any (fun s => decide (s ≤ 0)) = true := by simpa using h3
              simp [h4, t5, ho, this, h3', bind, Except.bind, pure, Except.pure, throw, throwThe, MonadExceptOf.throw]
            · have h3' : ∀ s ∈ o, 0 < s := by push Not at h3; exact h3
              have : o.any (fun s => decide (s ≤ 0)) = false := by simpa using h3'
              simp [h4, t5, ho, this, bind, Except.bind, pure, Except.pure]
              constructor
              · rintro rfl; exact ⟨⟨h2', h5', h3'⟩, rfl⟩
              · rintro ⟨_, rfl⟩; rfl
        · simp [h4, Ne.symm h4, bind, Except.bind, throw, throwThe, MonadExceptOf.throw]
  · simp [h1, bind, Except.bind, throw, throwThe, MonadExceptOf.throw]

/-- In-range arithmetic, dimension by dimension. -/
theorem src_inShape (xs shape step i j : List Int) (h1 : xs.length = shape.length) (h2 : step.length = xs.length)
    (hst : ∀ s ∈ step, 0 < s)
    (hi : InShape i (List.zipWith (fun d st => d / st + 1) (List.zipWith (· - ·) xs shape) step)) (hj : InShape j shape) :
    InShape (srcIndex i step j) xs := by
  induction xs generalizing shape step i j with
  | nil =>
    match shape, step, h1, h2 with
    | [], [], _, _ =>
      cases i <;> cases j <;> simp [InShape, srcIndex] at *
  | cons n ns ih =>
    match shape, step, h1, h2 with
    | s :: ss, st :: sts, h1, h2 =>
      match i, j, hi, hj with
      | i :: is, j :: js, hi, hj =>
        simp only [List.zipWith_cons_cons, InShape, srcIndex] at hi hj ⊢
        have hst' : 0 < st := hst st (by simp)
        refine ⟨?_, ?_, ih ss sts is js (by simpa using h1) (by simpa using h2) (fun s hs => hst s (by simp [hs])) hi.2.2 hj.2.2⟩
        · have := mul_nonneg hi.1 hst'.le
          omega
        · have h3 : i ≤ (n - s) / st := by omega
          have h4 : i * st ≤ (n - s) / st * st := mul_le_mul_of_nonneg_right h3 hst'.le
          have h5 : (n - s) / st * st ≤ n - s := Int.ediv_mul_le _ (by omega)
          omega

/-- **C11**: when a view is produced, its shape is `(x.shape - shape)//step + 1` followed by `shape`, its element `(i, j)`
is the element `i*step + j` of the array (the same address), and that position lies inside the array. -/
theorem C11_faithful (x : Strided) (hx : x.shape.length = x.strides.length) (shape : List Int) (step : Option (List Int))
    (v : Strided) (hv : slidingWindowView x shape step = .ok v) :
    (∃ o, v.shape = o ++ shape ∧ o.length = x.shape.length ∧
      (∀ k (hk : k < o.length), o[k]? = some (((x.shape[k]?).getD 0 - (shape[k]?).getD 0) / ((effStep x step)[k]?).getD 0 + 1)) ∧
      ∀ i j, InShape i o → InShape j shape →
        InShape (srcIndex i (effStep x step) j) x.shape ∧
        dot (i ++ j) v.strides = dot (srcIndex i (effStep x step) j) x.strides) := by
  rw [slidingWindowView_ok_iff] at hv
  obtain ⟨⟨h1, h2, h3, h4, h5⟩, rfl⟩ := hv
  refine ⟨_, rfl, by simp [← h1, h3], ?_, ?_⟩
  · intro k hk
    simp only [List.length_zipWith] at hk
    have a1 : k < x.shape.length := by omega
    have a2 : k < shape.length := by omega
    have a3 : k < (effStep x step).length := by omega
    simp [List.getElem?_zipWith, a1, a2, a3]
  · intro i j hi hj
    refine ⟨src_inShape _ _ _ _ _ h1 h3 h4 hi hj, ?_⟩
    have li := hi.length
    have lj := hj.length
    simp only [List.length_zipWith] at li
    rw [dot_append _ _ _ _ (by simp; omega), dot_src _ _ _ _ (by omega) (by omega) (by omega)]

example := C11_faithful ⟨[4, 5], [5, 1]⟩ rfl [2, 3] (some [1, 2]) ⟨[3, 2, 2, 3], [5, 2, 5, 1]⟩ (by decide)

/-- **C11**: a view is produced exactly for valid requests; everything else raises. -/
theorem C11_guards (x : Strided) (shape : List Int) (step : Option (List Int)) :
    (∃ v, slidingWindowView x shape step = .ok v) ↔
      (x.shape.length = shape.length ∧ (effStep x step).length = x.shape.length ∧ (∀ s ∈ shape, 0 < s) ∧
        (∀ s ∈ effStep x step, 0 < s) ∧ ∀ k, k < x.shape.length → (shape[k]?).getD 0 ≤ (x.shape[k]?).getD 0) := by
  simp only [slidingWindowView_ok_iff, exists_and_left, exists_eq, and_true]
  have key : ∀ (xs shape step : List Int), xs.length = shape.length → step.length = xs.length → (∀ s ∈ step, 0 < s) →
      ((∀ o ∈ List.zipWith (fun d st => d / st + 1) (List.zipWith (· - ·) xs shape) step, 0 < o) ↔
        ∀ k, k < xs.length → (shape[k]?).getD 0 ≤ (xs[k]?).getD 0) := by
    intro xs
    induction xs with
    | nil => intro shape step _ _ _; simp
    | cons n ns ih =>
      intro shape step h1 h2 h3
      match shape, step, h1, h2 with
      | s :: ss, st :: sts, h1, h2 =>
        have hst : 0 < st := h3 st (by simp)
        simp only [List.zipWith_cons_cons, List.forall_mem_cons]
        rw [ih ss sts (by simpa using h1) (by simpa using h2) (fun s hs => h3 s (by simp [hs]))]
        have e : 0 < (n - s) / st + 1 ↔ s ≤ n := by
          have h := Int.ediv_nonneg_iff_of_pos (a := n - s) hst
          constructor
          · intro hh; have := h.mp (by omega); omega
          · intro hh; have := h.mpr (by omega); omega
        rw [e]
        constructor
        · rintro ⟨ha, hb⟩ k hk
          cases k with
          | zero => simpa using ha
          | succ k => simpa using hb k (by simpa using hk)
        · intro h
          exact ⟨by simpa using h 0 (by simp), fun k hk => by simpa using h (k + 1) (by simpa using hk)⟩
  constructor
  · rintro ⟨h1, h2, h3, h4, h5⟩
    exact ⟨h1, h3, h2, h4, (key _ _ _ h1 h3 h4).mp h5⟩
  · rintro ⟨h1, h2, h3, h4, h5⟩
    exact ⟨h1, h3, h2, h4, (key _ _ _ h1 h2 h4).mpr h5⟩

example : ∃ v, slidingWindowView ⟨[4, 5], [5, 1]⟩ [2, 3] (some [1, 2]) = .ok v :=
  (C11_guards ⟨[4, 5], [5, 1]⟩ [2, 3] (some [1, 2])).mpr (by
    refine ⟨rfl, rfl, by decide, by decide, ?_⟩
    intro k hk
    have : k = 0 ∨ k = 1 := by simp at hk; omega
    rcases this with rfl | rfl <;> decide)

/-- A 2-D example: 4×5 array in row-major layout, 2×3 windows, step (1, 2). -/
example : slidingWindowView ⟨[4, 5], [5, 1]⟩ [2, 3] (some [1, 2]) = .ok ⟨[3, 2, 2, 3], [5, 2, 5, 1]⟩ := by decide
example : slidingWindowView ⟨[4], [1]⟩ [5] none = .error .valueError := by decide

/-- **C11**, the 1-D unit-step use made by the generators: reading a contiguous array `data` through the view gives the
list of its windows (`slidingWindows`), which are the windows of the specification. -/
theorem C11_windows_1d {α : Type} (data : List α) (m : Nat) :
    (∀ ws, slidingWindows data m = .ok ws → ws = windows m data ∧ 0 < m ∧ m ≤ data.length ∧
      slidingWindowView ⟨[data.length], [1]⟩ [m] none = .ok ⟨[ws.length, m], [1, 1]⟩ ∧
      ∀ (i j : Nat) (hi : i < ws.length) (hj : j < m),
        (ws[i])[j]? = data[(dot [(i : Int), (j : Int)] [1, 1]).toNat]? ∧ i + j < data.length) ∧
    (slidingWindows data m = .error .valueError ↔ m = 0 ∨ data.length < m) ∧
    (∀ e, slidingWindows data m = .error e → slidingWindowView ⟨[data.length], [1]⟩ [m] none = .error e) := by
  unfold slidingWindows
  by_cases h0 : m = 0
  · subst h0
    refine ⟨by simp, by simp, ?_⟩
    intro e he
    simp at he; subst he
    simp [slidingWindowView, bind, Except.bind, throw, throwThe, MonadExceptOf.throw]
  by_cases h1 : data.length < m
  · refine ⟨by simp [h0, h1], by simp [h0, h1], ?_⟩
    intro e he
    simp [h0, h1] at he; subst he
    have : ¬ (m : Int) ≤ 0 := by omega
    have h2 : (data.length : Int) - m + 1 ≤ 0 := by omega
    simp [slidingWindowView, bind, Except.bind, pure, Except.pure, throw, throwThe, MonadExceptOf.throw, h0, h2]
  · simp only [h0, if_false, h1]
    refine ⟨?_, by simp, by simp⟩
    intro ws hws
    obtain rfl := Except.ok.inj hws
    refine ⟨?_, by omega, by omega, ?_, ?_⟩
    · unfold windows
      rw [show data.length + 1 - m = data.length - m + 1 by omega]
    · have : ¬ (m : Int) ≤ 0 := by omega
      have h2 : ¬ (data.length : Int) - m + 1 ≤ 0 := by omega
      have h3 : ((data.length - m + 1 : Nat) : Int) = data.length - m + 1 := by omega
      simp [slidingWindowView, bind, Except.bind, pure, Except.pure, h0, h2]
      omega
    · intro i j hi hj
      simp at hi
      simp only [List.getElem_map, List.getElem_range, dot]
      constructor
      · rw [List.getElem?_take, if_pos hj, List.getElem?_drop]
        congr 1; omega
      · omega

example : [[1, 2, 3], [2, 3, 4]] = windows 3 [1, 2, 3, 4] := ((C11_windows_1d [1, 2, 3, 4] 3).1 _ (by decide)).1
example : slidingWindows [1, 2] 3 = .error .valueError := (C11_windows_1d [1, 2] 3).2.1.mpr (by decide)

example : slidingWindows [1, 2, 3, 4] 3 = .ok [[1, 2, 3], [2, 3, 4]] := by decide

end Verif
