import Verif.Props.ContextualProfile
import Verif.Props.MatrixProfile

/-!
# C116: contextual matrix profiles of unions of contexts
-/

namespace Verif
open Spec
variable {K : Type} [LinearOrder K]

/-- Arguments of a `ContextualMatrixProfile` with a `GeneralStaticManager`: the contexts, what `argsort` gives, `rb_scale_factor`, memory. -/
structure StaticArgs (K : Type) where
  series : List (PRange ⊕ List PRange)
  query : Option (List (PRange ⊕ List PRange))
  o1 : List Nat
  o2 : List Nat
  scale : ℚ
  memD : List (List (Fl K))
  memS : List (List Int)
  memQ : List (List Int)

namespace StaticArgs
variable (A : StaticArgs K)

/-- The query contexts. -/
def qctx : List Ctx := contexts (A.query.getD A.series)
/-- The series contexts. -/
def sctx : List Ctx := contexts A.series

/-- Increasing ranges with at least one that is not empty on each axis. -/
structure Ok : Prop where
  series : ValidRanges A.series
  query : ValidRanges (A.query.getD A.series)
  someSeries : A.sctx ≠ []
  someQuery : A.qctx ≠ []
  start : IsArgsortBy Ctx.start A.qctx A.o1
  stop : IsArgsortBy Ctx.stop A.qctx A.o2
  scale1 : 1 ≤ A.scale
  scale2 : A.scale ≤ 2
  memD : A.memD.length = RB.capacity A.scale (numIds A.sctx)
  memS : A.memS.length = RB.capacity A.scale (numIds A.sctx)
  memQ : A.memQ.length = RB.capacity A.scale (numIds A.sctx)

/-- The consumer after `initialise` and some calls of `process_diagonal` and `process_column`. -/
def fed (h w : Nat) (ds : List (Delivery K)) : Except PyErr (CMP StaticMgr K) := do
  let m ← StaticMgr.init A.series A.query A.o1 A.o2
  let p ← CMP.initialise StaticMgr.ops m A.scale h w A.memD A.memS A.memQ
  p.run StaticMgr.ops ds

end StaticArgs

namespace ContextUnion

omit [LinearOrder K] in
theorem whole_cells {h w : Nat} {ds : List (Delivery K)} (hw : ∀ d ∈ ds, Whole h w d) : ∀ x ∈ (Seen.init.run ds).cells, ∃ r c : Nat, r < h ∧ c < w ∧ x.row = r ∧ x.col = c := by
  intro x hx
  rw [Seen.run_noShift ds (by
    intro d hd n
    have := hw d hd
    constructor <;> (rintro rfl; exact this))] at hx
  simp only [Seen.init, List.nil_append, List.mem_flatten, List.mem_map] at hx
  obtain ⟨_, ⟨d, hd, rfl⟩, hx⟩ := hx
  have := hw d hd
  cases d with
  | diag d vals =>
    obtain ⟨⟨v, k⟩, hk, rfl⟩ := List.mem_map.mp hx
    have hk := (List.getElem?_eq_some_iff.mp (List.mem_zipIdx_iff_getElem?.mp hk)).1
    obtain ⟨-, hl⟩ := this
    simp only at hk
    exact ⟨_, _, by omega, by omega, rfl, rfl⟩
  | column c vals =>
    obtain ⟨⟨v, k⟩, hk, rfl⟩ := List.mem_map.mp hx
    have hk := (List.getElem?_eq_some_iff.mp (List.mem_zipIdx_iff_getElem?.mp hk)).1
    obtain ⟨hc, -, hl⟩ := this
    simp only at hk
    exact ⟨_, _, by omega, by omega, rfl, rfl⟩
  | _ => exact this.elim

omit [LinearOrder K] in
theorem entry {rb : RB (List (Fl K))} {nq ns : Nat} {D : Nat → Nat → Fl K} (h : rb.items = gridCols nq ns D) {i j : Nat} (hi : i < nq) (hj : j < ns) :
    rb.getEntry i j = .ok (D i j) := by
  unfold RB.getEntry
  rw [h, gridCols, pyGet_range_map _ _ _ hj]
  exact pyGet_range_map _ _ _ hi

theorem fed_min {A : StaticArgs K} (hA : A.Ok) (h w : Nat) {ds : List (Delivery K)} (hw : ∀ d ∈ ds, Whole h w d) (hn : ∀ d ∈ ds, NoNaN d) :
    ∃ p D Q S, A.fed h w ds = .ok p ∧ p.Holds (numIds A.qctx) (numIds A.sctx) D Q S ∧
      ∀ i < numIds A.qctx, ∀ j < numIds A.sctx, IsRectMin (Seen.init.run ds).cells A.qctx A.sctx i j (D i j) (Q i j) (S i j) := by
  obtain ⟨m, p, e1, e2, e3⟩ := C51_static_partial (K := K) A.series A.query hA.series hA.query hA.someSeries hA.someQuery A.o1 A.o2 hA.start hA.stop h w A.scale
    hA.scale1 hA.scale2 A.memD A.memS A.memQ hA.memD hA.memS hA.memQ
  obtain ⟨p', D, Q, S, f1, f2, f3⟩ := e3 ds hw hn
  refine ⟨p', D, Q, S, ?_, f2, f3⟩
  simp only [StaticArgs.fed, e1, e2, f1, bind, Except.bind]

end ContextUnion

/-- **C116.** Two `ContextualMatrixProfile` consumers with different contexts are given the same whole diagonals and columns without NaN: nothing is raised. If the rows of query
context `i` of the first are those of the query contexts `I` of the second, and the columns of its series context `j` those of the series contexts `J`, then entry (`i`, `j`) of
the first distance matrix is the smallest of the entries `I` × `J` of the second. -/
theorem C116_union (A B : StaticArgs K) (hA : A.Ok) (hB : B.Ok) (h w : Nat) (ds : List (Delivery K)) (hw : ∀ d ∈ ds, Whole h w d) (hn : ∀ d ∈ ds, NoNaN d) :
    ∃ a b, A.fed h w ds = .ok a ∧ B.fed h w ds = .ok b ∧ ∀ i < numIds A.qctx, ∀ j < numIds A.sctx, ∀ I J : Nat → Prop,
      (∀ i', I i' → i' < numIds B.qctx) → (∀ j', J j' → j' < numIds B.sctx) →
      (∀ r < h, InCtx A.qctx i (r : Nat) ↔ ∃ i', I i' ∧ InCtx B.qctx i' (r : Nat)) → (∀ c < w, InCtx A.sctx j (c : Nat) ↔ ∃ j', J j' ∧ InCtx B.sctx j' (c : Nat)) →
      ∃ v, a.dist.getEntry i j = .ok v ∧ (∀ i' j', I i' → J j' → ∃ v', b.dist.getEntry i' j' = .ok v' ∧ v ≤ v') ∧
        (v = .pinf ∨ ∃ i' j', I i' ∧ J j' ∧ b.dist.getEntry i' j' = .ok v) := by
  obtain ⟨a, D, Q, S, a1, a2, a3⟩ := ContextUnion.fed_min hA h w hw hn
  obtain ⟨b, D', Q', S', b1, b2, b3⟩ := ContextUnion.fed_min hB h w hw hn
  have hcells := ContextUnion.whole_cells hw
  refine ⟨a, b, a1, b1, fun i hi j hj I J hI hJ hr hc => ⟨D i j, ContextUnion.entry a2.1 hi hj, fun i' j' hi' hj' => ⟨D' i' j', ContextUnion.entry b2.1 (hI _ hi') (hJ _ hj'), ?_⟩, ?_⟩⟩
  · rcases (b3 i' (hI _ hi') j' (hJ _ hj')).attained with ⟨e, -⟩ | ⟨-, hx, k1, k2⟩
    · rw [e, Fl.le_pinf_iff]
      rcases (a3 i hi j hj).attained with ⟨e, -⟩ | ⟨e, -⟩
      · rw [e]; simp
      · exact ((Fl.le_pinf_iff _).mp e.le)
    · obtain ⟨r, c, g1, g2, g3, g4⟩ := hcells _ hx
      refine (a3 i hi j hj).lower _ hx ?_ ?_
      · rw [g3]; dsimp only at g3; rw [g3] at k1; exact (hr r g1).mpr ⟨i', hi', k1⟩
      · rw [g4]; dsimp only at g4; rw [g4] at k2; exact (hc c g2).mpr ⟨j', hj', k2⟩
  · rcases (a3 i hi j hj).attained with ⟨e, -⟩ | ⟨hlt, hx, k1, k2⟩
    · exact .inl e
    · right
      obtain ⟨r, c, g1, g2, g3, g4⟩ := hcells _ hx
      dsimp only at g3 g4
      rw [g3] at k1
      rw [g4] at k2
      obtain ⟨i', hi', k1'⟩ := (hr r g1).mp k1
      obtain ⟨j', hj', k2'⟩ := (hc c g2).mp k2
      refine ⟨i', j', hi', hj', ?_⟩
      rw [ContextUnion.entry b2.1 (hI _ hi') (hJ _ hj')]
      congr 1
      refine le_antisymm ((b3 i' (hI _ hi') j' (hJ _ hj')).lower _ hx (by dsimp only; rw [g3]; exact k1') (by dsimp only; rw [g4]; exact k2')) ?_
      rcases (b3 i' (hI _ hi') j' (hJ _ hj')).attained with ⟨e, -⟩ | ⟨-, hy, m1, m2⟩
      · rw [e]; exact hlt.le
      · obtain ⟨r', c', n1, n2, n3, n4⟩ := hcells _ hy
        dsimp only at n3 n4
        rw [n3] at m1
        rw [n4] at m2
        refine (a3 i hi j hj).lower _ hy ?_ ?_
        · dsimp only; rw [n3]; exact (hr r' n1).mpr ⟨i', hi', m1⟩
        · dsimp only; rw [n4]; exact (hc c' n2).mpr ⟨j', hj', m2⟩

namespace ContextUnion

/-- `v` is the smallest of the numbers `T`, `+inf` if there is none. -/
def Least (T : Fl K → Prop) (v : Fl K) : Prop := v ≠ .nan ∧ (∀ x, T x → v ≤ x) ∧ (v = .pinf ∨ T v)

theorem Least.unique {T : Fl K → Prop} {u v : Fl K} (hu : Least T u) (hv : Least T v) : u = v := by
  have : ∀ a b : Fl K, Least T a → Least T b → a ≤ b := fun a b ha hb => by
    rcases hb.2.2 with e | e
    · rw [e]; exact (Fl.le_pinf_iff _).mpr ha.1
    · exact ha.2.1 _ e
  exact le_antisymm (this u v hu hv) (this v u hv hu)

theorem Least.either {T S U : Fl K → Prop} {a b : Fl K} (ha : Least T a) (hb : Least S b) (h : ∀ x, U x ↔ T x ∨ S x) : Least U (if Fl.ltF a b then a else b) := by
  have e : (if Fl.ltF a b then a else b) = min a b := by
    split
    · rename_i hlt; rw [Fl.ltF_iff] at hlt; exact (min_eq_left hlt.1.le).symm
    · rename_i hlt; rw [Bool.not_eq_true, Fl.ltF_false_iff _ _ hb.1] at hlt; exact (min_eq_right hlt).symm
  rw [e]
  have hl : ∀ x, U x → min a b ≤ x := fun x hx => ((h x).mp hx).elim (fun hx => (min_le_left _ _).trans (ha.2.1 x hx)) fun hx => (min_le_right _ _).trans (hb.2.1 x hx)
  rcases min_choice a b with e | e <;> rw [e] at hl ⊢
  · exact ⟨ha.1, hl, ha.2.2.imp_right fun hx => (h _).mpr (.inl hx)⟩
  · exact ⟨hb.1, hl, hb.2.2.imp_right fun hx => (h _).mpr (.inr hx)⟩

omit [LinearOrder K] in
theorem whole_valid {h w : Nat} {d : Delivery K} (hd : Whole h w d) : d.Valid h w := by
  cases d with
  | diag d vals =>
    obtain ⟨hne, hl⟩ := hd
    have := List.length_pos_iff.mpr hne
    exact ⟨by omega, by omega⟩
  | column c vals => exact ⟨hd.1, hd.2.1, hd.2.2.le⟩
  | _ => exact hd.elim

theorem rect_least {cells : List (Cell K)} {h w : Nat} (hcells : ∀ x ∈ cells, ∃ r c : Nat, r < h ∧ c < w ∧ x.row = r ∧ x.col = c) {ql sl : List Ctx} {i j : Int} {v : Fl K} {a b : Int}
    (hm : IsRectMin cells ql sl i j v a b) {c : Nat} {R : Nat → Prop} (hr : ∀ r < h, InCtx ql i (r : Nat) ↔ R r) (hc : ∀ c' < w, InCtx sl j (c' : Nat) ↔ c' = c) :
    Least (fun x => ∃ r : Nat, R r ∧ (⟨r, c, x⟩ : Cell K) ∈ cells) v := by
  refine ⟨?_, fun x ⟨r, h1, h2⟩ => ?_, ?_⟩
  · rcases hm.attained with ⟨e, -⟩ | ⟨e, -⟩
    · rw [e]; simp
    · exact (Fl.le_pinf_iff _).mp e.le
  · obtain ⟨r', c', g1, g2, g3, g4⟩ := hcells _ h2
    simp only [Nat.cast_inj] at g3 g4
    subst g3 g4
    exact hm.lower _ h2 ((hr _ g1).mpr h1) ((hc _ g2).mpr rfl)
  · rcases hm.attained with ⟨e, -⟩ | ⟨-, h1, h2, h3⟩
    · exact .inl e
    · obtain ⟨r', c', g1, g2, g3, g4⟩ := hcells _ h1
      dsimp only at g3 g4
      subst g3 g4
      obtain rfl := (hc _ g2).mp h3
      exact .inr ⟨r', (hr _ g1).mp h2, h1⟩

theorem side_least {cells : List (Cell K)} {h w : Nat} (hcells : ∀ x ∈ cells, ∃ r c : Nat, r < h ∧ c < w ∧ x.row = r ∧ x.col = c) {c : Nat} {left : Bool} {v : Fl K} {i : Int}
    (hm : IsMin (entriesFor cells c left) v i) : Least (fun x => ∃ r : Nat, decide (r ≤ c) = left ∧ (⟨r, c, x⟩ : Cell K) ∈ cells) v := by
  refine ⟨hm.number, fun x ⟨r, h1, h2⟩ => hm.lower (x, (r : Int)) ((mem_entriesFor _ _ _ _ _).mpr ⟨h2, by simpa using h1⟩), hm.attained.imp (fun e => e.1) fun e => ?_⟩
  obtain ⟨h1, h2⟩ := (mem_entriesFor _ _ _ _ _).mp e
  obtain ⟨r', c', -, -, g3, -⟩ := hcells _ h1
  dsimp only at g3
  subst g3
  exact ⟨r', by simpa using h2, h1⟩

end ContextUnion

/-- **C116, matrix profiles.** A `ContextualMatrixProfile` and a `MatrixProfileLR` are given the same whole diagonals and columns of a matrix without NaN: nothing is raised. If
series context `j` consists of column `c` only, then the entry for a query context of all rows is the matrix profile at `c`, the entry for a query context of the rows up to
`c` the left matrix profile, and the entry for a query context of the rows after `c` the right one. -/
theorem C116_matrix_profile (A : StaticArgs K) (hA : A.Ok) (M : Nat → Nat → Fl K) (h w : Nat) (hM : ∀ i < h, ∀ j < w, M i j ≠ .nan) (ds : List (Delivery K))
    (hw : ∀ d ∈ ds, Whole h w d) (ho : ∀ d ∈ ds, d.Of M h) (hn : ∀ d ∈ ds, NoNaN d) :
    ∃ (a : CMP StaticMgr K) (p p' : MP K), A.fed h w ds = .ok a ∧ MP.initialise h w = .ok p ∧ p.run ds = .ok p' ∧
      ∀ i < numIds A.qctx, ∀ j < numIds A.sctx, ∀ c < w, (∀ c' < w, InCtx A.sctx j (c' : Nat) ↔ c' = c) →
        ∃ v, a.dist.getEntry i j = .ok v ∧ ((∀ r < h, InCtx A.qctx i (r : Nat)) → (MP.merged p'.left p'.right)[c]? = some v) ∧
          ((∀ r < h, InCtx A.qctx i (r : Nat) ↔ r ≤ c) → p'.left[c]? = some v) ∧ ((∀ r < h, InCtx A.qctx i (r : Nat) ↔ c < r) → p'.right[c]? = some v) := by
  obtain ⟨a, D, Q, S, a1, a2, a3⟩ := ContextUnion.fed_min hA h w hw hn
  obtain ⟨p, p', p1, p2, -, -, p3⟩ := C39_any_mix M h w hM ds (fun d hd => ContextUnion.whole_valid (hw d hd)) ho
  have hcells := ContextUnion.whole_cells hw
  refine ⟨a, p, p', a1, p1, p2, fun i hi j hj c hc hcol => ⟨D i j, ContextUnion.entry a2.1 hi hj, fun hr => ?_, fun hr => ?_, fun hr => ?_⟩⟩ <;>
    obtain ⟨⟨l, li, l1, l2, l3⟩, ⟨r, ri, r1, r2, r3⟩⟩ := p3 c hc
  · rw [(MP.merged_get _ _ _ _ c l r li ri l1 r1 l2 r2).1]
    congr 1
    refine ((ContextUnion.side_least hcells l3).either (ContextUnion.side_least hcells r3) fun x => ?_).unique
      (ContextUnion.rect_least hcells (a3 i hi j hj) (R := fun _ => True) (fun r hr' => iff_of_true (hr r hr') trivial) hcol)
    constructor
    · rintro ⟨r, -, hx⟩
      cases e : decide (r ≤ c) with
      | true => exact .inl ⟨r, e, hx⟩
      | false => exact .inr ⟨r, e, hx⟩
    · rintro (⟨r, -, hx⟩ | ⟨r, -, hx⟩) <;> exact ⟨r, trivial, hx⟩
  · rw [l1]
    congr 1
    refine (ContextUnion.side_least hcells l3).unique ?_
    simpa using ContextUnion.rect_least hcells (a3 i hi j hj) hr hcol
  · rw [r1]
    congr 1
    refine (ContextUnion.side_least hcells r3).unique ?_
    simpa using ContextUnion.rect_least hcells (a3 i hi j hj) hr hcol

/-! ### Concrete cases -/

/-- The second series context consists of column 3 only; one query context of all rows, one of rows 0 and 1. -/
def unionA : StaticArgs ℚ := ⟨[.inr [⟨0, 2, 1⟩, ⟨2, 4, 1⟩], .inl ⟨3, 4, 1⟩], some [.inl ⟨0, 3, 1⟩, .inl ⟨0, 2, 1⟩], [0, 1], [1, 0], 1, [[], []], [[], []], [[], []]⟩

/-- The parts: series contexts of columns 0, 1 and of columns 2, 3, query contexts of row 0 and of rows 1, 2. -/
def unionB : StaticArgs ℚ := ⟨[.inl ⟨0, 2, 1⟩, .inl ⟨2, 4, 1⟩], some [.inl ⟨0, 1, 1⟩, .inl ⟨1, 3, 1⟩], [0, 1], [0, 1], 1, [[], []], [[], []], [[], []]⟩

local instance (l : List Ctx) (i x : Int) : Decidable (InCtx l i x) := inferInstanceAs (Decidable (∃ c ∈ l, c.id = i ∧ c.start ≤ x ∧ x < c.stop))

theorem ContextUnion.sorted_pair {f : Ctx → Int} {l : List Ctx} {i j : Nat} (h : ∀ x ∈ l[i]?, ∀ y ∈ l[j]?, f x ≤ f y) :
    [i, j].Pairwise fun i j => ∀ x y : Ctx, l[i]? = some x → l[j]? = some y → f x ≤ f y :=
  List.pairwise_pair.mpr fun x y hx hy => h x hx y hy

theorem unionA_ok : unionA.Ok := by
  refine ⟨?_, ?_, by decide, by decide, ⟨by decide, ContextUnion.sorted_pair (by decide)⟩, ⟨by decide, ContextUnion.sorted_pair (by decide)⟩, le_refl (1 : ℚ), show (1 : ℚ) ≤ 2 by norm_num, by decide +kernel, by decide +kernel,
    by decide +kernel⟩
  · intro x hx r hr
    simp only [unionA, List.mem_cons, List.not_mem_nil, or_false] at hx
    rcases hx with rfl | rfl <;> simp only [rangesOf, List.mem_cons, List.not_mem_nil, or_false] at hr
    · rcases hr with rfl | rfl <;> decide
    · subst hr; decide
  · intro x hx r hr
    simp only [unionA, Option.getD_some, List.mem_cons, List.not_mem_nil, or_false] at hx
    rcases hx with rfl | rfl <;> simp only [rangesOf, List.mem_singleton] at hr <;> subst hr <;> decide

theorem unionB_ok : unionB.Ok := by
  refine ⟨?_, ?_, by decide, by decide, ⟨by decide, ContextUnion.sorted_pair (by decide)⟩, ⟨by decide, ContextUnion.sorted_pair (by decide)⟩, le_refl (1 : ℚ), show (1 : ℚ) ≤ 2 by norm_num, by decide +kernel, by decide +kernel,
    by decide +kernel⟩
  · intro x hx r hr
    simp only [unionB, List.mem_cons, List.not_mem_nil, or_false] at hx
    rcases hx with rfl | rfl <;> simp only [rangesOf, List.mem_singleton] at hr <;> subst hr <;> decide
  · intro x hx r hr
    simp only [unionB, Option.getD_some, List.mem_cons, List.not_mem_nil, or_false] at hx
    rcases hx with rfl | rfl <;> simp only [rangesOf, List.mem_singleton] at hr <;> subst hr <;> decide

/-- Columns 3 and 1 and the diagonal below the main one of the matrix with entries (5 r + 3 c) mod 7. -/
def unionData : List (Delivery ℚ) := [.column 3 [.fin 2, .fin 0, .fin 5], .column 1 [.fin 3, .fin 1, .fin 6], .diag (-1) [.fin 5, .fin 6]]

theorem unionData_whole : ∀ d ∈ unionData, Whole 3 4 d := by
  intro d hd
  simp only [unionData, List.mem_cons, List.not_mem_nil, or_false] at hd
  rcases hd with rfl | rfl | rfl <;> simp [Whole]

theorem unionData_noNaN : ∀ d ∈ unionData, NoNaN d := by
  intro d hd
  simp only [unionData, List.mem_cons, List.not_mem_nil, or_false] at hd
  rcases hd with rfl | rfl | rfl <;> simp [NoNaN]

example := C116_union unionA unionB unionA_ok unionB_ok 3 4 unionData unionData_whole unionData_noNaN

/-- The distance matrices of the two, the ranges of the first are unions of ranges of the second. -/
example : ((unionA.fed 3 4 unionData).map fun a => a.dist.items) = .ok [[.fin 0, .fin 0], [.fin 0, .fin 0]] ∧
    ((unionB.fed 3 4 unionData).map fun b => b.dist.items) = .ok [[.fin 3, .fin 1], [.fin 2, .fin 0]] := by
  decide +kernel

/-- Query context 0 of the first is the union of query contexts 0 and 1 of the second, and series context 0 that of series contexts 0 and 1. -/
example : (∀ r < 3, InCtx unionA.qctx 0 (r : Nat) ↔ ∃ i' : Nat, i' < 2 ∧ InCtx unionB.qctx i' (r : Nat)) ∧
    ∀ c < 4, InCtx unionA.sctx 0 (c : Nat) ↔ ∃ j' : Nat, j' < 2 ∧ InCtx unionB.sctx j' (c : Nat) := by
  constructor <;> decide

example := C116_matrix_profile unionA unionA_ok (fun r c => .fin ((r * 5 + c * 3) % 7 : ℕ)) 3 4 (by simp) unionData unionData_whole
  (by
    intro d hd
    simp only [unionData, List.mem_cons, List.not_mem_nil, or_false] at hd
    rcases hd with rfl | rfl | rfl
    · show _ = _
      decide +kernel
    · show _ = _
      decide +kernel
    · intro k x hk
      match k, hk with
      | 0, hk => cases hk; decide +kernel
      | 1, hk => cases hk; decide +kernel) unionData_noNaN

/-- Series context 1 is column 3; query context 0 has all rows. -/
example : (∀ c' < 4, InCtx unionA.sctx 1 (c' : Nat) ↔ c' = 3) ∧ ∀ r < 3, InCtx unionA.qctx 0 (r : Nat) := by
  constructor <;> decide

end Verif
