import Verif.Model.Batch

/-!
# Sessions: generators and consumers added at any time

The dictionaries `_generators` and `_consumers` are keyed by the identity of the objects. Adding a new object appends an entry; adding a consumer that was
added before runs its `initialise` again and replaces its generator ids, the entry keeps its place. (`prepare` and `prepare_streaming` return a new bound
generator every time, so generators are never replaced.)
-/

namespace Verif
variable {P G C K : Type}

/-- `add_consumer` with the object that is number `k` in `_consumers`, calculator.py:69-72. (There is no such call for a `k` without an object.) -/
def Calc.againConsumer (ops : Ops G C K) (st : Calc G C) (k : Nat) (ids : List Nat) : Except PyErr (Calc G C) :=
  match st.cons[k]? with
  | none => .error .indexError
  | some c => do
      let c' ← ops.initialise c.1 ids.length st.numQuery st.numSeries
      return { st with cons := st.cons.set k (c', ids) }

/-- What a user does with a calculator: `add_generator` with a generator object (type `P`), `add_consumer` with a new object or with the `k`-th object
again, or a call (type `O`). `needed` is the order in which the set of needed generators is visited during the call (calculator.py:61-72, 107, 213-223, 236, 309-321). -/
inductive Act (P C O : Type)
  | generator (g : P) (dim : Int)
  | consumer (c : C) (ids : List Nat)
  | again (k : Nat) (ids : List Nat)
  | call (needed : List Nat) (op : O)

namespace Anytime

/-- One act, calculator.py:61-72, 85-135, 213-271. `prepare` is the method `prepare` of the generators. -/
def act (ops : Ops G C K) (prepare : P → Int → List (Fl K) → Option (List (Fl K)) → Except PyErr G) (st : Anytime G C K) :
    Act P C Op → Except PyErr (Anytime G C K)
  | .generator g dim => st.addGenerator (prepare g) dim
  | .consumer c ids => st.addConsumer ops ids c
  | .again k ids => (st.base.againConsumer ops k ids).map fun b => { st with base := b }
  | .call needed op => st.step ops needed op

/-- A sequence of acts, none of which raises. -/
def session (ops : Ops G C K) (prepare : P → Int → List (Fl K) → Option (List (Fl K)) → Except PyErr G) :
    List (Act P C Op) → Anytime G C K → Except PyErr (Anytime G C K)
  | [], st => .ok st
  | a :: as, st => do session ops prepare as (← st.act ops prepare a)

end Anytime

namespace Streaming

/-- One act, calculator.py:61-72, 85-135, 309-397. `prepare` is the method `prepare_streaming` of the generators. -/
def act (ops : Ops G C K) (prepare : P → Int → Int → Option Int → Except PyErr G) (st : Streaming G C) : Act P C (Op K) → Except PyErr (Streaming G C)
  | .generator g dim => st.addGenerator (prepare g) dim
  | .consumer c ids => st.addConsumer ops ids c
  | .again k ids => (st.base.againConsumer ops k ids).map fun b => { st with base := b }
  | .call needed op => step ops needed st op

/-- A sequence of acts, none of which raises. -/
def session (ops : Ops G C K) (prepare : P → Int → Int → Option Int → Except PyErr G) : List (Act P C (Op K)) → Streaming G C → Except PyErr (Streaming G C)
  | [], st => .ok st
  | a :: as, st => do session ops prepare as (← st.act ops prepare a)

end Streaming

/-- A new `AnytimeCalculator` and a session with it: the consumers with their generator ids at the end (calculator.py:165-271). -/
def batchSession (ops : Ops G C K) (prepare : P → Int → List (Fl K) → Option (List (Fl K)) → Except PyErr G) (shuffle : List Int → List Int) (m : Int)
    (series : List (List (Fl K))) (query : Option (List (List (Fl K)))) (buffer : Option Int) (acts : List (Act P C Anytime.Op)) :
    Except PyErr (List (C × List Nat)) := do
  let st ← Anytime.init shuffle m series query buffer
  let st ← Anytime.session ops prepare acts st
  return st.base.cons

/-- A new `StreamingCalculator` and a session with it: the consumers with their generator ids at the end (calculator.py:282-397). -/
def streamSession (ops : Ops G C K) (prepare : P → Int → Int → Option Int → Except PyErr G) (m seriesWindow : Int) (queryWindow : Option Int) (nDim : Nat)
    (buffer : Option Int) (acts : List (Act P C (Streaming.Op K))) : Except PyErr (List (C × List Nat)) := do
  let st ← Streaming.init m seriesWindow queryWindow nDim buffer
  let st ← Streaming.session ops prepare acts st
  return st.base.cons

end Verif
