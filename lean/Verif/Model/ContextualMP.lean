import Verif.Model.RingBuffer
import Verif.Model.ContextManager
import Verif.PyArith

/-!
# Model of `distancematrix/consumer/contextual_matrix_profile.py`

`values` has one row per channel; only row 0 is read. An element of the ring buffers is one column of the 2-D array. The context manager is abstract.
`self._range` (46) is not used by the code. Writing one entry and checking the shape of a push follow ringbuffer.py.
-/

namespace Verif

/-- What the consumer uses of a context manager, `class AbstractContextManager`, contextmanager.py:7-55. The shift methods return the new manager and
the shift of the context matrix. -/
structure CtxOps (M : Type) where
  queryContexts : M → Int → Int → Except PyErr (List Ctx)
  seriesContexts : M → Int → Int → Except PyErr (List Ctx)
  shape : M → Except PyErr (Int × Int)
  shiftQuery : M → Int → Except PyErr (M × Int)
  shiftSeries : M → Int → Except PyErr (M × Int)

/-- `GeneralStaticManager` as a context manager, contextmanager.py:58-114. -/
def StaticMgr.ops : CtxOps StaticMgr :=
  { queryContexts := StaticMgr.queryContexts, seriesContexts := StaticMgr.seriesContexts, shape := StaticMgr.shape,
    shiftQuery := StaticMgr.shift, shiftSeries := StaticMgr.shift }

namespace RB
variable {α : Type}

/-- `buffer[i, j]` on a 2-D buffer, ringbuffer.py:117-118 -/
def getEntry (rb : RB (List α)) (i j : Int) : Except PyErr α := do pyGet (← pyGet rb.items j) i

/-- `buffer[i, j] = x` on a 2-D buffer, ringbuffer.py:114-115 -/
def setEntry (rb : RB (List α)) (i j : Int) (x : α) : Except PyErr (RB (List α)) := do
  let col ← pyGet rb.items j
  rb.setItem j (← pySet col i x)

/-- `buffer.view = np.roll(buffer.view, k, axis=0)`, contextual_matrix_profile.py:131, 133, 135: the view becomes an array of its own. -/
def rollView (rb : RB (List α)) (k : Nat) : RB (List α) :=
  { rb with view := .detached (rb.items.map fun col => (List.range col.length).filterMap fun r : Nat => col[(((r : Int) - k) % (col.length : Int)).toNat]?) }

/-- `buffer[-height:, :] = x`, contextual_matrix_profile.py:132, 134, 136, on the array of its own produced by `rollView`. -/
def fillRows (rb : RB (List α)) (height : Nat) (x : α) : RB (List α) :=
  match rb.view with
  | .detached d => { rb with view := .detached (d.map fun col => pyFill col (-(height : Int)) col.length x) }
  | .window _ _ => rb

end RB

/-- `class ContextualMatrixProfile` after `initialise`, contextual_matrix_profile.py:8-55. -/
structure CMP (M K : Type) where
  w : Int
  h : Int
  ctxs : M
  qShift : Int
  sShift : Int
  dist : RB (List (Fl K))
  mis : RB (List Int)
  miq : RB (List Int)

namespace CMP
variable {M K : Type} [LinearOrder K] (ops : CtxOps M)

/-- `RingBuffer(np.full((nq, ns), x), scaling_factor=...)`, contextual_matrix_profile.py:50-55. `junk`: the memory of `np.empty`. -/
def fullBuffer {α : Type} (nq ns : Nat) (x : α) (junk : List (List α)) : Except PyErr (RB (List α)) :=
  RB.init (some ([nq], List.replicate ns (List.replicate nq x))) none false junk

/-- `__init__` and `initialise`, contextual_matrix_profile.py:17-55 -/
def initialise (m : M) (scale : ℚ) (querySubseq seriesSubseq : Int) (junkD : List (List (Fl K))) (junkS junkQ : List (List Int)) :
    Except PyErr (CMP M K) := do
  if scale < 1 then .error .valueError
  else
    let (nq, ns) ← ops.shape m
    if nq < 0 ∨ ns < 0 then .error .valueError
    else
      let dist ← fullBuffer nq.toNat ns.toNat (.pinf : Fl K) junkD
      let mis ← fullBuffer nq.toNat ns.toNat (-1 : Int) junkS
      let miq ← fullBuffer nq.toNat ns.toNat (-1 : Int) junkQ
      return { w := seriesSubseq, h := querySubseq, ctxs := m, qShift := 0, sShift := 0, dist := dist, mis := mis, miq := miq }

/-- Comparison of the values `sub` of one pair of contexts with the entry, and its replacement: contextual_matrix_profile.py:87-96, 107-112.
`pos` gives the query and the series position (without shifts) of a position in `sub`. -/
def improve (p : CMP M K) (i j : Int) (sub : List (Fl K)) (pos : Nat → Int × Int) : Except PyErr (CMP M K) := do
  let mn ← npMin sub
  let old ← p.dist.getEntry i j
  if Fl.ltF mn old then
    let dist ← p.dist.setEntry i j mn
    let am ← npArgmin sub
    let miq ← p.miq.setEntry i j ((pos am).1 + p.qShift)
    let mis ← p.mis.setEntry i j ((pos am).2 + p.sShift)
    return { p with dist := dist, miq := miq, mis := mis }
  else return p

/-- The inner loop of `process_diagonal`, contextual_matrix_profile.py:79-96. `vs`: `values_idx1_start`. -/
def diagInner (vals : List (Fl K)) (diag vs ss1Start ss1End c0id : Int) : List Ctx → CMP M K → Except PyErr (CMP M K)
  | [], p => .ok p
  | c1 :: l, p => do
    let a := max ss1Start c1.start
    let b := min ss1End c1.stop
    let p ← p.improve c0id c1.id (pySlice vals (a - vs) (b - vs)) fun k => (k + (a - diag), k + a)
    diagInner vals diag vs ss1Start ss1End c0id l p

/-- The outer loop of `process_diagonal`, contextual_matrix_profile.py:68-96. -/
def diagOuter (vals : List (Fl K)) (diag vs : Int) : List Ctx → CMP M K → Except PyErr (CMP M K)
  | [], p => .ok p
  | c0 :: l, p => do
    let ss1Start := min (max 0 (c0.start + diag)) p.w
    let ss1End := min p.w (min p.h c0.stop + diag)
    if ss1Start = ss1End then diagOuter vals diag vs l p
    else
      let cs ← ops.seriesContexts p.ctxs ss1Start ss1End
      let p ← diagInner vals diag vs ss1Start ss1End c0.id cs p
      diagOuter vals diag vs l p

/-- `process_diagonal`, contextual_matrix_profile.py:57-96 -/
def processDiagonal (p : CMP M K) (diag : Int) (values : List (List (Fl K))) : Except PyErr (CMP M K) := do
  let vals ← pyGet values 0
  if diag ≥ 0 then
    let cs ← ops.queryContexts p.ctxs 0 vals.length
    diagOuter ops vals diag diag cs p
  else
    let cs ← ops.queryContexts p.ctxs (-diag) p.h
    diagOuter ops vals diag 0 cs p

/-- The inner loop of `process_column`, contextual_matrix_profile.py:105-112. -/
def colInner (vals : List (Fl K)) (c c1id : Int) : List Ctx → CMP M K → Except PyErr (CMP M K)
  | [], p => .ok p
  | c0 :: l, p => do
    let p ← p.improve c0.id c1id (pySlice vals c0.start c0.stop) fun k => (k + c0.start, c)
    colInner vals c c1id l p

/-- The outer loop of `process_column`, contextual_matrix_profile.py:102-112. -/
def colOuter (vals : List (Fl K)) (c : Int) : List Ctx → CMP M K → Except PyErr (CMP M K)
  | [], p => .ok p
  | c1 :: l, p => do
    let cs ← ops.queryContexts p.ctxs 0 p.h
    let p ← colInner vals c c1.id cs p
    colOuter vals c l p

/-- `process_column`, contextual_matrix_profile.py:98-112 -/
def processColumn (p : CMP M K) (c : Int) (values : List (List (Fl K))) : Except PyErr (CMP M K) := do
  let vals ← pyGet values 0
  let cs ← ops.seriesContexts p.ctxs c (c + 1)
  colOuter ops vals c cs p

/-- `max_shape[0]` of the distance matrix buffer, contextual_matrix_profile.py:119, 130. -/
def height (p : CMP M K) : Nat := p.dist.lead.headD 0

/-- `shift_series`, contextual_matrix_profile.py:114-122 -/
def shiftSeries (p : CMP M K) (amount : Int) : Except PyErr (CMP M K) := do
  let (m, k) ← ops.shiftSeries p.ctxs amount
  if k > 0 then
    let (dist, _) ← p.dist.pushArr [p.height] (List.replicate k.toNat (List.replicate p.height .pinf))
    let (mis, _) ← p.mis.pushArr [p.height] (List.replicate k.toNat (List.replicate p.height (-1)))
    let (miq, _) ← p.miq.pushArr [p.height] (List.replicate k.toNat (List.replicate p.height (-1)))
    return { p with ctxs := m, sShift := p.sShift + amount, dist := dist, mis := mis, miq := miq }
  else return { p with ctxs := m, sShift := p.sShift + amount }

/-- `shift_query`, contextual_matrix_profile.py:124-136 -/
def shiftQuery (p : CMP M K) (amount : Int) : Except PyErr (CMP M K) := do
  let (m, k) ← ops.shiftQuery p.ctxs amount
  if k > 0 then
    let height := min k.toNat p.height
    return { p with ctxs := m, qShift := p.qShift + amount,
                    dist := (p.dist.rollView k.toNat).fillRows height .pinf,
                    mis := (p.mis.rollView k.toNat).fillRows height (-1),
                    miq := (p.miq.rollView k.toNat).fillRows height (-1) }
  else return { p with ctxs := m, qShift := p.qShift + amount }

end CMP
end Verif
