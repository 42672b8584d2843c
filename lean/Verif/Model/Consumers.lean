import Verif.Model.Batch
import Verif.Model.RadiusProfile
import Verif.Model.Multidimensional

/-!
# The interface of further consumers

How a calculator reaches the methods of a consumer object, as for `MP.ops` and `DM.ops`. None of the classes here has `shift_series` / `shift_query`
(`AttributeError`), apart from `ContextualMatrixProfile` and `MultidimensionalMatrixProfileLR`.
-/

namespace Verif
variable {G C K M : Type}

/-- The generator side of an interface. -/
def GenOps.with (gops : GenOps G K) (initialise : C → Nat → Int → Int → Except PyErr C) (processColumn processDiagonal : C → Int → List (List (Fl K)) → Except PyErr C)
    (shiftSeries shiftQuery : C → Int → Except PyErr C) : Ops G C K :=
  { calcColumn := gops.calcColumn, calcDiagonal := gops.calcDiagonal, appendSeries := gops.appendSeries, appendQuery := gops.appendQuery,
    initialise := initialise, processColumn := processColumn, processDiagonal := processDiagonal, shiftSeries := shiftSeries, shiftQuery := shiftQuery }

/-- A `DistancedThresholdCounter` consumer (threshold_counter.py:45-97) next to generators. `argsort` stands for `np.argsort`. The state before `initialise`
holds the arguments of the constructor. -/
def DTC.ops [LinearOrder K] (argsort : List (Fl K) → List Nat) (gops : GenOps G K) : Ops G (DTC K) K :=
  gops.with (fun c _ _ s => DTC.initialise c.thresholds c.exclusion s)
    (fun p c values => do p.processColumn (argsort (← pyGet values 0)) c values) DTC.processDiagonal
    (fun _ _ => .error .attributeError) (fun _ _ => .error .attributeError)

/-- A new `DistancedThresholdCounter(thresholds, exclusion)` before `initialise`, threshold_counter.py:54-62 -/
def DTC.new (thresholds : List (Fl K)) (exclusion : Int) : DTC K := ⟨thresholds, exclusion, 0, fun _ _ => 0⟩

/-- A `RadiusProfile0` consumer (radius_profile.py:9-53) next to generators. The state before `initialise` holds the track indices as given to the constructor. -/
def RP0.ops [LinearOrder K] (gops : GenOps G K) : Ops G (RP0 K) K :=
  gops.with (fun c _ _ s => RP0.initialise c.track s) RP0.processColumn RP0.processDiagonal (fun _ _ => .error .attributeError) (fun _ _ => .error .attributeError)

/-- A new `RadiusProfile0(track_indices)` before `initialise`, radius_profile.py:19-37 -/
def RP0.new (track : List Int) : RP0 K := ⟨track, 0, fun _ _ => .nan⟩

/-- A `RadiusProfile` consumer (radius_profile.py:56-114) next to generators. `none`: some column is not processed after `fuel` steps. -/
def RP.ops [LinearOrder K] (fuel : Nat) (gops : GenOps G K) : Ops G (Option (RP K)) K :=
  gops.with (fun c _ _ s => match c with
      | none => .ok none
      | some c => (RP.initialise c.track (some c.exclusion) s).map some)
    (fun p c values => match p with
      | none => .ok none
      | some p => p.processColumn fuel c values)
    (fun p d values => match p with
      | none => .ok none
      | some p => (p.processDiagonal d values).map some)
    (fun _ _ => .error .attributeError) (fun _ _ => .error .attributeError)

/-- A new `RadiusProfile(track_indices, exclude_trivial_match)` before `initialise`, radius_profile.py:63-88 -/
def RP.new (track : List Int) (exclude : Int) : RP K := ⟨track, exclude, 0, fun _ _ => .nan⟩

/-- A `ContextualMatrixProfile` object: the context manager and `rb_scale_factor` given to the constructor, contextual_matrix_profile.py:17-43, and its
content once `initialise` has been called. `memD`, `memS`, `memQ`: the memory that `initialise` finds. -/
structure CMPObj (M K : Type) where
  ctxs : M
  scale : ℚ
  memD : List (List (Fl K))
  memS : List (List Int)
  memQ : List (List Int)
  st : Option (CMP M K)

/-- A method call before `initialise` finds `None` for the buffers and raises, contextual_matrix_profile.py:29-41 (a calculator never does that). -/
def CMPObj.call (o : CMPObj M K) (f : CMP M K → Except PyErr (CMP M K)) : Except PyErr (CMPObj M K) :=
  match o.st with
  | none => .error .typeError
  | some p => (f p).map fun p => { o with st := some p }

/-- `initialise`, contextual_matrix_profile.py:43-55, on an object: the buffers are new, but the context manager, which may have been shifted, and the
shifts (set in `__init__`, 34-35) stay those of the object. -/
def CMPObj.initialise (ctx : CtxOps M) (o : CMPObj M K) (q s : Int) : Except PyErr (CMPObj M K) :=
  match o.st with
  | none => (CMP.initialise ctx o.ctxs o.scale q s o.memD o.memS o.memQ).map fun p => { o with st := some p }
  | some p => (CMP.initialise ctx p.ctxs o.scale q s o.memD o.memS o.memQ).map fun p' =>
      { o with st := some { p' with qShift := p.qShift, sShift := p.sShift } }

/-- A `ContextualMatrixProfile` consumer (contextual_matrix_profile.py:8-136) next to generators. -/
def CMP.ops [LinearOrder K] (ctx : CtxOps M) (gops : GenOps G K) : Ops G (CMPObj M K) K :=
  gops.with (fun o _ q s => o.initialise ctx q s)
    (fun o i v => o.call fun p => p.processColumn ctx i v)
    (fun o i v => o.call fun p => p.processDiagonal ctx i v)
    (fun o n => o.call fun p => p.shiftSeries ctx n)
    (fun o n => o.call fun p => p.shiftQuery ctx n)

/-- A `MultidimensionalMatrixProfileLR` object: the argument of `__init__` (multidimensional_matrix_profile_lr.py:31-58), uninitialised memory for its
buffers, and what `initialise` made of it, if it was called. -/
structure MDObj (K : Type) where
  scale : ℚ
  memF : Nat → List (List (Fl K))
  memI : Nat → List (List Int)
  memR : Nat → List Int
  st : Option (MDMP K)

/-- A method call before `initialise` finds `None` for the buffers and raises, multidimensional_matrix_profile_lr.py:44-53 (a calculator never does that). -/
def MDObj.call (o : MDObj K) (f : MDMP K → Except PyErr (MDMP K)) : Except PyErr (MDObj K) :=
  match o.st with
  | none => .error .typeError
  | some p => (f p).map fun p => { o with st := some p }

/-- `initialise`, multidimensional_matrix_profile_lr.py:60-80: the buffers are new, the shifts (set in `__init__`, 55-56) stay those of the object. A negative
number of subsequences does not fit `np.full`. -/
def MDObj.initialise [Field K] [LinearOrder K] (o : MDObj K) (dims : Nat) (s : Int) : Except PyErr (MDObj K) :=
  if s < 0 then .error .valueError
  else (MDMP.initialise o.memF o.memI o.memR o.scale dims s.toNat).map fun p' => { o with st := some (match o.st with
    | none => p'
    | some p => { p' with seriesShift := p.seriesShift, queryShift := p.queryShift }) }

/-- The columns of a 2-D array given by its rows (`MDMP` takes 2-D arrays as lists of columns, `values` of multidimensional_matrix_profile_lr.py:82, 170). -/
def colsOf (values : List (List (Fl K))) : List (List (Fl K)) :=
  (List.range (values.headD []).length).map fun k => values.filterMap fun row => row[k]?

/-- A `MultidimensionalMatrixProfileLR` consumer (multidimensional_matrix_profile_lr.py:7-227) next to generators. `argsort` stands for `np.argsort`. -/
def MDMP.ops [Field K] [LinearOrder K] (argsort : List (Fl K) → List Nat) (gops : GenOps G K) : Ops G (MDObj K) K :=
  gops.with (fun o dims _ s => o.initialise dims s)
    (fun o c values => o.call fun p => p.processColumn argsort c values.length (colsOf values))
    (fun o d values => o.call fun p => p.processDiagonal argsort d values.length (colsOf values))
    (fun o n => o.call fun p => p.shiftSeries n)
    (fun o n => o.call fun p => p.shiftQuery n)

end Verif
