import Verif.Model.ZNormEuclidean
import Mathlib.Analysis.SpecialFunctions.Log.Basic

/-!
# Model of `distancematrix/valmod.py`

The series is 1-D by type (guard 25-26), the lengths and the cache size are ints (so the finiteness guards hold). Lower bound entries are
changed in place by the code (line 73); each belongs to one list, so here the lists are rebuilt. Indices are natural numbers where the code
only forms non-negative ones. `argsort` is any function sorting the indices (NumPy does not fix the order of equal elements).
-/

namespace Verif
namespace Valmod

/-- `class LowerBoundEntry`, valmod.py:194-199 -/
structure Entry where
  q : Nat
  s : Nat
  base : Fl ℝ
  dot : Fl ℝ

/-- `np.clip(x, 0, 1)` of one element, valmod.py:174 -/
noncomputable def clip01 : Fl ℝ → Fl ℝ
  | .nan => .nan
  | .ninf => .fin 0
  | .pinf => .fin 1
  | .fin x => .fin (min (max x 0) 1)

/-- `a[max(0, c - buffer): c + buffer + 1] = np.inf`, valmod.py:113-115, 151-153, 176 -/
def blank (a : List (Fl ℝ)) (c b : Int) : List (Fl ℝ) := pyFill a (max 0 (c - b)) (c + b + 1) .pinf

/-- One element of `lower_bound_base`, valmod.py:174-175 -/
noncomputable def baseEntry (m muC stdC : ℝ) (dot : Fl ℝ) (mu std : ℝ) : Fl ℝ :=
  Fl.mul (Fl.sqrtF Real.sqrt (Fl.mul (.fin m) (Fl.sub (.fin 1)
    (Fl.square (clip01 (Fl.div (Fl.sub (Fl.div dot (.fin m)) (.fin (mu * muC))) (.fin (std * stdC)))))))) (.fin stdC)

/-- `lower_bound_base` before line 176, valmod.py:174-175 -/
noncomputable def bases (m muC stdC : ℝ) (dot : List (Fl ℝ)) (mu std : List ℝ) : Except PyErr (List (Fl ℝ)) :=
  npZip Prod.mk mu std >>= fun ms => npZip (fun d (x : ℝ × ℝ) => baseEntry m muC stdC d x.1 x.2) dot ms

/-- `np.searchsorted(a, v)` of a sorted array, valmod.py:182 -/
noncomputable def searchsorted (a : List (Fl ℝ)) (v : Fl ℝ) : Nat := (a.takeWhile fun x => decide (x < v)).length

/-- valmod.py:181-183, `v` being the value at the last of the indices `c` -/
noncomputable def trim (base : List (Fl ℝ)) (c : List Nat) (v : Fl ℝ) : Except PyErr (List Nat) :=
  if v.eqF .pinf then (c.mapM fun i : Nat => pyGet base (i : Int)) >>= fun vs => .ok (c.take (searchsorted vs .pinf))
  else .ok c

/-- `closest_indices`, valmod.py:178-183 (`IndexError` at line 181 if there are none) -/
noncomputable def closest (argsort : List (Fl ℝ) → List Nat) (size : Int) (base : List (Fl ℝ)) : Except PyErr (List Nat) := do
  let c := pyTo (argsort base) size
  let last ← pyGet c (-1)
  let v ← pyGet base (last : Int)
  trim base c v

/-- One entry of a list, valmod.py:187-188 -/
def mkEntry (base dot : List (Fl ℝ)) (c q : Nat) : Except PyErr Entry := do
  let v ← pyGet base (q : Int)
  let d ← pyGet dot (q : Int)
  return ⟨q, c, v, d⟩

/-- `lb_list` of a column that is not constant, valmod.py:174-188 -/
noncomputable def boundList (argsort : List (Fl ℝ) → List Nat) (size b : Int) (z : ZN) (c : Nat) (muC stdC : ℝ) : Except PyErr (List Entry) := do
  let base ← bases z.core.m muC stdC z.core.prev z.sStats.mu.items z.sStats.std.items
  let base := blank base c b
  let idx ← closest argsort size base
  idx.mapM (mkEntry base z.core.prev c)

/-- `lb_list`, valmod.py:161-188 -/
noncomputable def lbList (argsort : List (Fl ℝ) → List Nat) (size b : Int) (z : ZN) (c : Nat) : Except PyErr (List Entry) := do
  let stdC ← pyGet z.sStats.std.items (c : Int)
  let muC ← pyGet z.sStats.mu.items (c : Int)
  if stdC = 0 then .ok [] else boundList argsort size b z c muC stdC

/-- The best pair so far: distance and indices -/
structure Best where
  dist : Fl ℝ
  idx : Option (Nat × Nat)

/-- Comparing the best pair with a column of distances, valmod.py:116-120, 155-158 -/
noncomputable def Best.improve (best : Best) (d : List (Fl ℝ)) (c : Nat) : Except PyErr Best := do
  let v ← npMin d
  if v.ltF best.dist then do
    let r ← npArgmin d
    return ⟨v, some (r, c)⟩
  else return best

/-- Loop state of `_find_all_motifs_full_matrix_iteration` -/
structure Full where
  gen : ZN
  lists : List (List Entry)
  best : Best

/-- One round of the loop valmod.py:147-189 -/
noncomputable def Full.column (mem : ZN.Mem) (argsort : List (Fl ℝ) → List Nat) (size b : Int) (st : Full) (c : Nat) : Except PyErr Full := do
  let (z, d) ← ZN.calcColumn mem.fl st.gen (c : Int)
  let best ← st.best.improve (blank d c b) c
  let l ← lbList argsort size b z c
  return ⟨z, st.lists ++ [l], best⟩

/-- `_find_all_motifs_full_matrix_iteration`, valmod.py:128-191 -/
noncomputable def full (mem : ZN.Mem) (argsort : List (Fl ℝ) → List Nat) (size b : Int) (z : ZN) : Except PyErr Full :=
  (List.range z.sStats.mu.items.length).foldlM (Full.column mem argsort size b) ⟨z, [], ⟨.pinf, none⟩⟩

/-- Python's `max(a, b)` of two numbers, valmod.py:83 -/
noncomputable def pyMax (a b : Fl ℝ) : Fl ℝ := if a.ltF b then b else a

/-- `best_match_distance`, `best_match_entry` (its indices) and `subseq_lower_bound`, valmod.py:60-62 -/
structure Scan where
  dist : Fl ℝ
  entry : Option (Nat × Nat)
  lb : Fl ℝ

/-- valmod.py:73-83: an entry that is still of use -/
noncomputable def Scan.use (z : ZN) (series : List (Fl ℝ)) (m : Int) (i : Nat) (sc : Scan) (e : Entry) : Except PyErr (Scan × Entry) := do
  let x ← pyGet series (e.q + m - 1)
  let y ← pyGet series (e.s + m - 1)
  let dot := Fl.add e.dot (Fl.mul x y)
  let d ← z.calcSingle e.q e.s (some dot)
  let std ← pyGet z.sStats.std.items (i : Int)
  return ({ dist := if d.ltF sc.dist then d else sc.dist
            entry := if d.ltF sc.dist then some (e.q, e.s) else sc.entry
            lb := pyMax sc.lb (Fl.div e.base (.fin std)) }, { e with dot := dot })

/-- One round of the loop valmod.py:64-83; `n`: `num_subseq` -/
noncomputable def Scan.step (z : ZN) (series : List (Fl ℝ)) (m n b : Int) (i : Nat) (sc : Scan) (e : Entry) : Except PyErr (Scan × Entry) :=
  if |(e.q : Int) - i| ≤ b then .ok (sc, e)
  else if n ≤ e.q ∨ n ≤ e.s then .ok (sc, e)
  else sc.use z series m i e

/-- The loop valmod.py:64-83 over a list: also gives the list afterwards -/
noncomputable def Scan.list (z : ZN) (series : List (Fl ℝ)) (m n b : Int) (i : Nat) (sc : Scan) : List Entry → Except PyErr (Scan × List Entry)
  | [] => .ok (sc, [])
  | e :: es => do
      let (sc, e) ← sc.step z series m n b i e
      let (sc, es) ← Scan.list z series m n b i sc es
      return (sc, e :: es)

/-- Loop state of valmod.py:57-94 -/
structure Pass where
  lists : List (List Entry)
  best : Best
  /-- `invalid_subseq_idxs` with `invalid_subseq_lbs` -/
  invalid : List (Nat × Fl ℝ)

/-- valmod.py:85-94; reading the indices of no entry would be an `AttributeError` -/
noncomputable def Pass.judge (p : Pass) (i : Nat) (sc : Scan) : Except PyErr Pass :=
  if sc.dist.ltF sc.lb then
    if sc.dist.ltF p.best.dist then
      match sc.entry with
      | some e => .ok { p with best := ⟨sc.dist, some e⟩ }
      | none => .error .attributeError
    else .ok p
  else .ok { p with invalid := p.invalid ++ [(i, sc.lb)] }

/-- One round of the loop valmod.py:57-94 -/
noncomputable def Pass.column (z : ZN) (series : List (Fl ℝ)) (m n b : Int) (p : Pass) (i : Nat) : Except PyErr Pass := do
  let l ← pyGet p.lists (i : Int)
  let (sc, l) ← Scan.list z series m n b i ⟨.pinf, none, .fin (-1)⟩ l
  let p ← p.judge i sc
  return { p with lists := p.lists.set i l }

/-- The test valmod.py:97, `lbMin` being `np.min` -/
noncomputable def Pass.accept (lbMin : List (Fl ℝ) → Except PyErr (Fl ℝ)) (p : Pass) : Except PyErr Bool :=
  match p.best.idx with
  | none => .ok false
  | some _ => do
      let v ← lbMin (p.invalid.map (·.2))
      return p.best.dist.leF v

/-- One round of the loop valmod.py:110-120 -/
noncomputable def recalcColumn (mem : ZN.Mem) (b : Int) (st : ZN × Best) (inv : Nat × Fl ℝ) : Except PyErr (ZN × Best) :=
  if inv.2.ltF st.2.dist then do
    let (z, d) ← ZN.calcColumn mem.fl st.1 (inv.1 : Int)
    let best ← st.2.improve (blank d inv.1 b) inv.1
    return (z, best)
  else .ok st

/-- The part of a round of the loop valmod.py:45-123 after the test of line 97 failed: lines 102-123. Gives the lists and the motif. -/
noncomputable def settle (mem : ZN.Mem) (argsort : List (Fl ℝ) → List Nat) (size b n : Int) (z : ZN) (p : Pass) :
    Except PyErr (List (List Entry) × Option (Nat × Nat)) :=
  if (n : ℝ) * Real.log n < (p.invalid.length : ℝ) then do
    let f ← full mem argsort size b z
    return (f.lists, f.best.idx)
  else do
    let (_, best) ← p.invalid.foldlM (recalcColumn mem b) (z, p.best)
    return (p.lists, best.idx)

/-- One round of the loop valmod.py:45-123 -/
noncomputable def lengthStep (mem : ZN.Mem) (argsort : List (Fl ℝ) → List Nat) (lbMin : List (Fl ℝ) → Except PyErr (Fl ℝ)) (noise : ℝ) (size b : Int)
    (series : List (Fl ℝ)) (st : List (List Entry) × List (Option (Nat × Nat))) (m : Int) :
    Except PyErr (List (List Entry) × List (Option (Nat × Nat))) := do
  let z ← ZN.prepare mem noise m series none
  let n : Int := series.length - m + 1
  let p ← (List.range n.toNat).foldlM (Pass.column z series m n b) ⟨st.1, ⟨.pinf, none⟩, []⟩
  let ok ← p.accept lbMin
  if ok then return (p.lists, st.2 ++ [p.best.idx])
  else do
    let (lists, motif) ← settle mem argsort size b n z p
    return (lists, st.2 ++ [motif])

/-- `find_variable_length_motifs`, valmod.py:6-125, with `np.min` of line 97 left open -/
noncomputable def findMotifsWith (lbMin : List (Fl ℝ) → Except PyErr (Fl ℝ)) (mem : ZN.Mem) (argsort : List (Fl ℝ) → List Nat) (series : List (Fl ℝ))
    (minLen maxLen size : Int) (noise : ℝ) : Except PyErr (List (Option (Nat × Nat))) :=
  if minLen < 2 then .error .runtimeError
  else if maxLen < minLen then .error .runtimeError
  else if size < 0 then .error .runtimeError
  else do
    let z ← ZN.prepare mem noise minLen series none
    let f ← full mem argsort size ((minLen + 1) / 2) z
    let (_, found) ← (pyRange (minLen + 1) (maxLen + 1)).foldlM (lengthStep mem argsort lbMin noise size ((minLen + 1) / 2) series)
      (f.lists, [f.best.idx])
    return found

/-- `find_variable_length_motifs`, valmod.py:6-125 -/
noncomputable def findMotifs (mem : ZN.Mem) (argsort : List (Fl ℝ) → List Nat) (series : List (Fl ℝ)) (minLen maxLen size : Int) (noise : ℝ) :
    Except PyErr (List (Option (Nat × Nat))) :=
  findMotifsWith npMin mem argsort series minLen maxLen size noise

end Valmod
end Verif
