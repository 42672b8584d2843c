import Mathlib.Algebra.BigOperators.Group.List.Basic
import Mathlib.Algebra.Order.Field.Rat
import Mathlib.Tactic.Ring
import Verif.Py

/-!
# Programs that draw random numbers

This file models no file of the repository: it fixes the meaning of the calls `rand() < p` and `randint(0, n)` of a NumPy `RandomState`.
A program is the tree of its draws. `Rnd.All` quantifies over every outcome of the generator, `Rnd.E` is the expectation for independent,
exactly distributed draws (the 53 bit resolution of `rand()` is not modelled).
-/

namespace Verif

/-- A program that draws random numbers and may raise. -/
inductive Rnd (α : Type) : Type
  | pure (a : α)
  | fail (e : PyErr)
  /-- the comparison `rand() < p` -/
  | flip (p : ℚ) (k : Bool → Rnd α)
  /-- `randint(0, n)`, `n > 0` -/
  | randint (n : Nat) (k : Nat → Rnd α)

namespace Rnd
variable {α β : Type}

/-- Sequencing. -/
def bind : Rnd α → (α → Rnd β) → Rnd β
  | .pure a, f => f a
  | .fail e, _ => .fail e
  | .flip p k, f => .flip p fun b => (k b).bind f
  | .randint n k, f => .randint n fun i => (k i).bind f

instance : Monad Rnd where
  pure := Rnd.pure
  bind := Rnd.bind

/-- A computation without draws. -/
def lift : Except PyErr α → Rnd α
  | .ok a => .pure a
  | .error e => .fail e

/-- One program per list element, in order. -/
def mapR (f : α → Rnd β) : List α → Rnd (List β)
  | [] => .pure []
  | a :: l => (f a).bind fun b => (mapR f l).bind fun bs => .pure (b :: bs)

/-- Whatever is drawn, the program does not raise and its result satisfies `P`; probabilities lie between 0 and 1. -/
def All : Rnd α → (α → Prop) → Prop
  | .pure a, P => P a
  | .fail _, _ => False
  | .flip p k, P => (0 ≤ p ∧ p ≤ 1) ∧ (k true).All P ∧ (k false).All P
  | .randint n k, P => 0 < n ∧ ∀ i < n, (k i).All P

/-- Expected value of `f` of the result (a program that raises contributes 0). -/
def E : Rnd α → (α → ℚ) → ℚ
  | .pure a, f => f a
  | .fail _, _ => 0
  | .flip p k, f => p * (k true).E f + (1 - p) * (k false).E f
  | .randint n k, f => ((List.range n).map fun i => (k i).E f).sum / n

open Classical in
/-- Probability of an event. -/
noncomputable def Pr (t : Rnd α) (S : α → Prop) : ℚ := t.E fun a => if S a then 1 else 0

theorem bind_def (t : Rnd α) (f : α → Rnd β) : (t >>= f) = t.bind f := rfl
theorem pure_def (a : α) : (Pure.pure a : Rnd α) = .pure a := rfl

@[simp] theorem pure_bind (a : α) (f : α → Rnd β) : (Rnd.pure a).bind f = f a := rfl

theorem bind_assoc {γ : Type} (t : Rnd α) (f : α → Rnd β) (g : β → Rnd γ) : (t.bind f).bind g = t.bind fun a => (f a).bind g := by
  induction t with
  | pure a => rfl
  | fail e => rfl
  | flip p k ih => simp only [bind, ih]
  | randint n k ih => simp only [bind, ih]

@[simp] theorem bind_pure (t : Rnd α) : t.bind .pure = t := by
  induction t with
  | pure a => rfl
  | fail e => rfl
  | flip p k ih => simp only [bind, ih]
  | randint n k ih => simp only [bind, ih]

theorem All.bind {t : Rnd α} {f : α → Rnd β} {P : α → Prop} {Q : β → Prop} (h : t.All P) (hf : ∀ a, P a → (f a).All Q) : (t.bind f).All Q := by
  induction t with
  | pure a => exact hf a h
  | fail e => exact h.elim
  | flip p k ih => exact ⟨h.1, ih _ h.2.1, ih _ h.2.2⟩
  | randint n k ih => exact ⟨h.1, fun i hi => ih _ (h.2 i hi)⟩

theorem All.mono {t : Rnd α} {P Q : α → Prop} (h : t.All P) (hPQ : ∀ a, P a → Q a) : t.All Q := by
  induction t with
  | pure a => exact hPQ a h
  | fail e => exact h.elim
  | flip p k ih => exact ⟨h.1, ih _ h.2.1, ih _ h.2.2⟩
  | randint n k ih => exact ⟨h.1, fun i hi => ih _ (h.2 i hi)⟩

theorem All.and {t : Rnd α} {P Q : α → Prop} (h : t.All P) (h' : t.All Q) : t.All fun a => P a ∧ Q a := by
  induction t with
  | pure a => exact ⟨h, h'⟩
  | fail e => exact h.elim
  | flip p k ih => exact ⟨h.1, ih _ h.2.1 h'.2.1, ih _ h.2.2 h'.2.2⟩
  | randint n k ih => exact ⟨h.1, fun i hi => ih _ (h.2 i hi) (h'.2 i hi)⟩

theorem E_bind (t : Rnd α) (f : α → Rnd β) (g : β → ℚ) : (t.bind f).E g = t.E fun a => (f a).E g := by
  induction t with
  | pure a => rfl
  | fail e => rfl
  | flip p k ih => simp only [bind, E, ih]
  | randint n k ih => simp only [bind, E, ih]

theorem All.E_congr {t : Rnd α} {P : α → Prop} (h : t.All P) {f g : α → ℚ} (hfg : ∀ a, P a → f a = g a) : t.E f = t.E g := by
  induction t with
  | pure a => exact hfg a h
  | fail e => rfl
  | flip p k ih => simp only [E]; rw [ih _ h.2.1, ih _ h.2.2]
  | randint n k ih =>
    simp only [E]
    congr 2
    exact List.map_congr_left fun i hi => ih i (h.2 i (by simpa using hi))

/-- Probabilities add up to 1. -/
theorem All.E_const {t : Rnd α} {P : α → Prop} (h : t.All P) (a : ℚ) : (t.E fun _ => a) = a := by
  induction t with
  | pure b => rfl
  | fail e => exact h.elim
  | flip p k ih => simp only [E]; rw [ih _ h.2.1, ih _ h.2.2]; ring
  | randint n k ih =>
    have h1 : ((List.range n).map fun i => (k i).E fun _ => a) = List.replicate n a := by
      rw [List.eq_replicate_iff]
      refine ⟨by simp, fun b hb => ?_⟩
      obtain ⟨i, hi, rfl⟩ := List.mem_map.mp hb
      exact ih i (h.2 i (by simpa using hi))
    simp only [E, h1, List.sum_replicate, nsmul_eq_mul]
    have : (n : ℚ) ≠ 0 := by exact_mod_cast h.1.ne'
    rw [mul_comm, mul_div_assoc, div_self this, mul_one]

theorem sum_map_lin (l : List Nat) (f g : Nat → ℚ) (a b : ℚ) :
    (l.map fun i => a * f i + b * g i).sum = a * (l.map f).sum + b * (l.map g).sum := by
  induction l with
  | nil => simp
  | cons x xs ih => simp only [List.map_cons, List.sum_cons, ih]; ring

theorem E_lin (t : Rnd α) (f g : α → ℚ) (a b : ℚ) : (t.E fun x => a * f x + b * g x) = a * t.E f + b * t.E g := by
  induction t with
  | pure x => rfl
  | fail e => simp [E]
  | flip p k ih => simp only [E, ih]; ring
  | randint n k ih => simp only [E, ih, sum_map_lin]; ring

theorem Pr_eq (t : Rnd α) (S : α → Prop) [DecidablePred S] : t.Pr S = t.E fun a => if S a then 1 else 0 := by
  unfold Pr
  congr 1
  funext a
  split <;> rfl

theorem All.mapR {f : α → Rnd β} {Q : α → β → Prop} (l : List α) (h : ∀ a ∈ l, (f a).All (Q a)) : (Rnd.mapR f l).All (List.Forall₂ Q l) := by
  induction l with
  | nil => exact .nil
  | cons a l ih =>
    refine (h a (by simp)).bind fun b hb => (ih fun a ha => h a (by simp [ha])).bind fun bs hbs => ?_
    exact .cons hb hbs

/-- One position of independent draws for the positions of a list. -/
theorem E_mapR_get (f : α → Rnd β) (l : List α) (h : ∀ a ∈ l, (f a).All fun _ => True) (k : Nat) (a : α) (hk : l[k]? = some a) (F : Option β → ℚ) :
    ((Rnd.mapR f l).E fun l' => F l'[k]?) = (f a).E fun b => F (some b) := by
  induction l generalizing k with
  | nil => simp at hk
  | cons x xs ih =>
    have hx := h x (by simp)
    have hxs : ∀ a ∈ xs, (f a).All fun _ => True := fun a ha => h a (by simp [ha])
    simp only [Rnd.mapR, E_bind]
    cases k with
    | zero =>
      simp at hk
      subst hk
      congr 1
      funext b
      show ((Rnd.mapR f xs).E fun bs => F (b :: bs)[0]?) = _
      simp only [List.getElem?_cons_zero]
      exact (All.mapR (Q := fun _ _ => True) xs hxs).E_const _
    | succ k =>
      simp at hk
      have : ∀ b, ((Rnd.mapR f xs).E fun bs => (Rnd.pure (b :: bs)).E fun l' => F l'[k + 1]?) = (f a).E fun b => F (some b) := by
        intro b
        simpa [E] using ih hxs k hk
      simp only [this]
      exact hx.E_const _

end Rnd
end Verif
