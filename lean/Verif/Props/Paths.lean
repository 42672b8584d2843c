import Mathlib.Algebra.Order.Group.Int
import Mathlib.Algebra.Order.Group.Nat
import Verif.Lemmas.ShortestPath

/-!
# C09–C10: cheapest paths
-/

namespace Verif
open Spec

/-- **C09**: every entry of `shortest_path_distances` is the least cost of a path to that cell (whatever the memory
`np.empty_like` returned). -/
theorem C09_least_cost {K : Type} [AddCommMonoid K] [LinearOrder K] [IsOrderedAddMonoid K] (junk : Mat K)
    (h w : Nat) (cost : Mat K) (i j : Nat) (hi : i < h) (hj : j < w) :
    IsLeast {c | ∃ p, IsPath p (i, j) ∧ pathCost cost p = c} (shortestPathDistances junk h w cost i j) := by
  rw [shortestPathDistances_eq junk h w cost i j hi hj]
  refine ⟨spRec_attained cost i j, ?_⟩
  rintro c ⟨p, hp, rfl⟩
  exact spRec_le cost p (i, j) hp

example := C09_least_cost (fun _ _ => (0 : Int)) 2 3 (fun i j => 3 * (i : Int) - 2 * j + 1) 1 2 (by decide) (by decide)

example : shortestPathDistances (fun _ _ => (0 : Int)) 2 3 (fun i j => 3 * (i : Int) - 2 * j + 1) 1 2 = -3 := by decide

/-- Paths to a cell stay inside every matrix containing that cell. -/
theorem isPath_bounds {p : List (Nat × Nat)} {e : Nat × Nat} (hp : IsPath p e) : ∀ c ∈ p, c.1 ≤ e.1 ∧ c.2 ≤ e.2 := by
  induction p using List.reverseRecOn generalizing e with
  | nil => simp
  | append_singleton q x ih =>
    intro c hc
    rcases isPath_cases hp with ⟨h, rfl⟩ | ⟨q', e', h, hq, hs⟩
    · rw [h] at hc; simp at hc; subst hc; exact ⟨le_refl _, le_refl _⟩
    · obtain ⟨rfl, he⟩ := List.append_inj' h rfl
      simp at he; subst he
      rcases List.mem_append.mp hc with hc | hc
      · have := ih hq c hc
        rcases hs with rfl | rfl | rfl <;> simp only <;> omega
      · simp at hc; subst hc; exact ⟨le_refl _, le_refl _⟩

/-- **C10**: on a finite cost matrix the loop of `shortest_path` ends after at most `h + w - 2` iterations, without
exception, and returns a path (inside the matrix) from the top left to the bottom right cell whose cost is least. -/
theorem C10_shortest_path {K : Type} [AddCommMonoid K] [LinearOrder K] [IsOrderedAddMonoid K] (junk : Mat (WithTop K))
    (h w : Nat) (hh : 0 < h) (hw : 0 < w) (cost : Mat (WithTop K)) (hfin : ∀ i j, i < h → j < w → cost i j ≠ ⊤)
    (fuel : Nat) (hf : h + w - 2 ≤ fuel) :
    ∃ p, shortestPath junk fuel h w cost = .ok (some (p.map fun c => ((c.1 : Int), (c.2 : Int)))) ∧
      IsPath p (h - 1, w - 1) ∧ (∀ c ∈ p, c.1 < h ∧ c.2 < w) ∧
      IsLeast {c | ∃ q, IsPath q (h - 1, w - 1) ∧ pathCost cost q = c} (pathCost cost p) := by
  obtain ⟨p, hp, hc, hl⟩ := walkLoop_spec h w (shortestPathDistances junk h w cost) cost
    (fun i j hi hj => shortestPathDistances_eq junk h w cost i j hi hj) hfin fuel (h - 1) (w - 1) (by omega) (by omega)
    (by omega) none []
  refine ⟨p, ?_, hp, ?_, ⟨p, hp, rfl⟩, ?_⟩
  · unfold shortestPath
    have e1 : ((h - 1 : Nat) : Int) = h - 1 := by omega
    have e2 : ((w - 1 : Nat) : Int) = w - 1 := by omega
    rw [e1, e2] at hl
    simp only
    rw [hl, List.append_nil]
  · intro c hcp
    have := isPath_bounds hp c hcp
    omega
  · rintro c ⟨q, hq, rfl⟩
    rw [hc]
    exact spRec_le cost q _ hq

example := C10_shortest_path (K := Nat) (fun _ _ => 0) 2 3 (by decide) (by decide) (fun i j => ((3 * i + j + 1 : Nat) : WithTop Nat))
  (fun _ _ _ _ => WithTop.coe_ne_top) 3 (by decide)

/-- Non-vacuity: a 2×3 matrix (costs 1..6). -/
example : shortestPath (K := Nat) (fun _ _ => 0) 3 2 3 (fun i j => ((3 * i + j + 1 : Nat) : WithTop Nat)) =
    .ok (some [(0, 0), (0, 1), (1, 2)]) := by decide

/-- **C10**, outside the documented domain: with an infinite cost the finiteness hypothesis cannot be dropped, the local
variable `delta_step` is read before assignment. -/
theorem C10_infinite_cost_raises :
    shortestPath (K := Nat) (fun _ _ => 0) 5 1 2 (fun _ j => if j = 0 then ⊤ else 1) = .error .runtimeError := by decide

end Verif
