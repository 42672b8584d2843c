import Verif.Py

/-!
# Model of `distancematrix/interrupt_util.py`

The code run inside (and around) `interrupt_catcher` is an arbitrary program whose visible actions are the arrival of
a SIGINT, a change of the process handler, a look at `is_interrupted()`, raising an exception and using
`interrupt_catcher` again.  SIGINT arrives between any two actions (CPython runs handlers between bytecodes).
The demo under `__main__` (34-51) is not modelled.  `signal.signal` called outside the main thread (`ValueError`) is not
modelled.
-/

namespace Verif

/-- The process SIGINT handler, as returned by `signal.getsignal`. -/
inductive Handler
  /-- a handler installed from Python; `raises`: calling it raises (as `default_int_handler` does) -/
  | user (id : Nat) (raises : Bool)
  /-- `set_interrupted` (interrupt_util.py:15-17) of the `i`-th activation of `interrupt_catcher` -/
  | setter (i : Nat)
  /-- a handler not installed from Python: `signal.getsignal` returns `None` -/
  | foreign
  deriving DecidableEq, Repr

/-- An arbitrary program around the catcher. -/
inductive Prog
  | ret
  | raise
  | sigint (next : Prog)
  | setHandler (id : Nat) (raises : Bool) (next : Prog)
  /-- `is_interrupted()` of the innermost active catcher -/
  | check (next : Bool → Prog)
  /-- `with interrupt_catcher() as is_interrupted: body` -/
  | catcher (body : Prog) (next : Prog)

/-- Process state: the handler, the `interrupted` variables of all activations so far (interrupt_util.py:13), and the
number of SIGINTs that were passed to a handler other than `set_interrupted`. -/
structure World where
  handler : Handler
  flags : List Bool
  escaped : Nat
  deriving DecidableEq, Repr

/-- How a program ends. -/
inductive Ending
  | normal
  | exception
  deriving DecidableEq, Repr

/-- A SIGINT arrives: the current handler is called (`set_interrupted`, interrupt_util.py:15-17, or another one). -/
def World.deliver (w : World) : World × Ending :=
  match w.handler with
  | .setter i => ({ w with flags := w.flags.set i true }, .normal)
  | .user _ true => ({ w with escaped := w.escaped + 1 }, .exception)
  | .user _ false => ({ w with escaped := w.escaped + 1 }, .normal)
  | .foreign => ({ w with escaped := w.escaped + 1 }, .normal)

/-- `signal.signal(SIGINT, original_sigint_handler)`, interrupt_util.py:31: a `None` handler raises `TypeError`. -/
def World.restore (w : World) (original : Handler) : World × Ending :=
  match original with
  | .foreign => (w, .exception)
  | h => ({ w with handler := h }, .normal)

/-- Execution of a program; `cell` is the innermost active catcher.  `interrupt_catcher`: interrupt_util.py:5-31 -/
def Prog.run (cell : Option Nat) : Prog → World → World × Ending
  | .ret, w => (w, .normal)
  | .raise, w => (w, .exception)
  | .sigint next, w =>
      match w.deliver with
      | (w, .normal) => next.run cell w
      | (w, .exception) => (w, .exception)
  | .setHandler id r next, w => next.run cell { w with handler := .user id r }
  | .check next, w => (next (match cell with | some i => w.flags.getD i false | none => false)).run cell w
  | .catcher body next, w =>
      -- 13: a new `interrupted = False`; 24: getsignal; 25: install
      let i := w.flags.length
      let original := w.handler
      let w := { w with flags := w.flags ++ [false], handler := .setter i }
      -- 27-31: try: body, finally: restore (also if the body raised)
      let (w, o) := body.run (some i) w
      match w.restore original, o with
      | (w, .exception), _ => (w, .exception)
      | (w, .normal), .exception => (w, .exception)
      | (w, .normal), .normal => next.run cell w

end Verif
