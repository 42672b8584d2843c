import Verif.Spec.Events

/-!
# Specification vocabulary: sessions

A user adds generators and consumers at any time and makes calls in between. Apart from the interface of consumers nothing here refers to the model.
-/

namespace Verif.Spec
variable {G C K P O σ : Type}

/-- The life of a consumer object: for every time it was added to the calculator the generators it was added for and the calls it received since. -/
abbrev Life (K : Type) := List (List Nat × List (CEvent K))

/-- A call on the calculator: a consumer receives what `evs` says for the generators it was last added for. -/
def Life.receive (evs : List Nat → List (CEvent K)) : Life K → Life K
  | [] => []
  | [(ids, es)] => [(ids, es ++ evs ids)]
  | x :: y :: l => x :: Life.receive evs (y :: l)

/-- The generators it was last added for. -/
def Life.ids (l : Life K) : List Nat := match l.getLast? with
  | some x => x.1
  | none => []

/-- The state in which a life leaves a consumer object `c`. -/
def live (ops : Ops G C K) (h w : Int) : C → Life K → Except PyErr C
  | c, [] => .ok c
  | c, x :: l => do live ops h w (← feed ops (← ops.initialise c x.1.length h w) x.2) l

/-- An act of the user: adding a generator `g`, a new consumer object `c`, the `k`-th consumer object again, or a call. -/
inductive SAct (P C O : Type)
  | generator (g : P)
  | consumer (c : C) (ids : List Nat)
  | again (k : Nat) (ids : List Nat)
  | call (op : O)

/-- The consumer objects with their lives after a session: `step` is the effect of a call on the state of the calculation, `events u op ids` what a consumer of
the generators `ids` receives during the call `op` made in state `u`. -/
def lives (step : σ → O → σ) (events : σ → O → List Nat → List (CEvent K)) : σ → List (C × Life K) → List (SAct P C O) → List (C × Life K)
  | _, ls, [] => ls
  | u, ls, .generator _ :: as => lives step events u ls as
  | u, ls, .consumer c ids :: as => lives step events u (ls ++ [(c, [(ids, [])])]) as
  | u, ls, .again k ids :: as => lives step events u (ls.modify k fun x => (x.1, x.2 ++ [(ids, [])])) as
  | u, ls, .call op :: as => lives step events (step u op) (ls.map fun x => (x.1, x.2.receive (events u op))) as

/-- The generators added in a session, in order. -/
def SAct.gens : List (SAct P C O) → List P
  | [] => []
  | .generator g :: as => g :: SAct.gens as
  | .consumer _ _ :: as => SAct.gens as
  | .again _ _ :: as => SAct.gens as
  | .call _ :: as => SAct.gens as

/-- The calls made in a session. -/
def SAct.calls : List (SAct P C O) → List O
  | [] => []
  | .generator _ :: as => SAct.calls as
  | .consumer _ _ :: as => SAct.calls as
  | .again _ _ :: as => SAct.calls as
  | .call op :: as => op :: SAct.calls as

/-- The time from one addition of a consumer object to the next: the generators it was added for, how far the calculation was then, and the calls since. -/
structure Span (σ O : Type) where
  ids : List Nat
  start : σ
  ops : List O

/-- One more call. -/
def Span.grow (op : O) : List (Span σ O) → List (Span σ O)
  | [] => []
  | [x] => [⟨x.ids, x.start, x.ops ++ [op]⟩]
  | x :: y :: l => x :: Span.grow op (y :: l)

/-- The consumer objects with their times after a session. -/
def spans (step : σ → O → σ) : σ → List (C × List (Span σ O)) → List (SAct P C O) → List (C × List (Span σ O))
  | _, ls, [] => ls
  | u, ls, .generator _ :: as => spans step u ls as
  | u, ls, .consumer c ids :: as => spans step u (ls ++ [(c, [⟨ids, u, []⟩])]) as
  | u, ls, .again k ids :: as => spans step u (ls.modify k fun x => (x.1, x.2 ++ [⟨ids, u, []⟩])) as
  | u, ls, .call op :: as => spans step (step u op) (ls.map fun x => (x.1, Span.grow op x.2)) as

/-- All that a consumer of the generators `ids` receives during a sequence of calls. -/
def received (step : σ → O → σ) (events : σ → O → List Nat → List (CEvent K)) (ids : List Nat) : σ → List O → List (CEvent K)
  | _, [] => []
  | u, op :: ops => events u op ids ++ received step events ids (step u op) ops

/-- A condition on all additions of consumers. -/
def SAct.Adds (p : List Nat → Prop) : SAct P C O → Prop
  | .consumer _ ids => p ids
  | .again _ ids => p ids
  | _ => True

end Verif.Spec
