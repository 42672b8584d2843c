import Verif.Model.Generator

/-!
# Generators that accept points regardless of what they were asked for
-/

namespace Verif.Spec
variable {G K : Type}

/-- States related by `R` hold the same data, they differ only in which columns and diagonals were asked for: asking leads to related states, and of two related states both accept points or
both raise. -/
structure Indifferent (gops : GenOps G K) (R : G → G → Prop) : Prop where
  refl : ∀ g, R g g
  column : ∀ a b c b' v, R a b → gops.calcColumn b c = .ok (b', v) → R a b'
  diagonal : ∀ a b d b' v, R a b → gops.calcDiagonal b d = .ok (b', v) → R a b'
  series : ∀ a b v, R a b → ((∃ a', gops.appendSeries a v = .ok a') ↔ ∃ b', gops.appendSeries b v = .ok b')
  series' : ∀ a b v a' b', R a b → gops.appendSeries a v = .ok a' → gops.appendSeries b v = .ok b' → R a' b'
  query : ∀ a b v, R a b → ((∃ a', gops.appendQuery a v = .ok a') ↔ ∃ b', gops.appendQuery b v = .ok b')
  query' : ∀ a b v a' b', R a b → gops.appendQuery a v = .ok a' → gops.appendQuery b v = .ok b' → R a' b'

end Verif.Spec
