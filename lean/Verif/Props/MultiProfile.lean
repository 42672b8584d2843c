import Verif.Lemmas.Shapes
import Verif.Lemmas.CaseExamples

/-!
# C71: `MultidimensionalMatrixProfileLR` in whole batch and streaming calculations
-/

namespace Verif
open Spec
variable {α G K : Type}

/-- `e` = (value, row, dimensions): the value is the smallest mean of `k + 1` of `n` distances `f 0 r`, …, `f (n - 1) r` over the rows `r` with `P` and all choices of
`k + 1` different dimensions; row and dimensions attain it; `+inf`, -1 and -1s if there is no row. -/
structure Spec.IsMultiMin (n k : Nat) (P : Nat → Prop) (f : Nat → Nat → ℝ) (e : Fl ℝ × Int × List Int) : Prop where
  lower : ∀ r, P r → ∀ T, Channels n (k + 1) T → e.1 ≤ .fin ((T.map fun i => f i r).sum / (k + 1))
  attained : (e = (.pinf, -1, List.replicate (k + 1) (-1)) ∧ ∀ r, ¬ P r) ∨
    ∃ r T, P r ∧ Channels n (k + 1) T ∧ e = (.fin ((T.map fun i => f i r).sum / (k + 1)), (r : Int), T.map fun i : Nat => (i : Int))

/-- The left, right and merged profile of a consumer of the distances `f i r c` (`i` < `n`) for `w` places, the first of which is column `first`: the pairs
calculated so far are those with `done`. -/
structure Spec.ShowsMulti (n w first : Nat) (done : Nat → Nat → Prop) (f : Nat → Nat → Nat → ℝ) (p : MDMP ℝ) : Prop where
  left : ∀ k < n, ∀ c < w, ∃ e, p.left.read k c = some e ∧ IsMultiMin n k (fun r => done r (c + first) ∧ r ≤ c + first) (fun i r => f i r (c + first)) e
  right : ∀ k < n, ∀ c < w, ∃ e, p.right.read k c = some e ∧ IsMultiMin n k (fun r => done r (c + first) ∧ c + first < r) (fun i r => f i r (c + first)) e
  merged : ∀ k < n, ∀ c < w, ∃ e, p.readMerged k c = some e ∧ IsMultiMin n k (fun r => done r (c + first)) (fun i r => f i r (c + first)) e

theorem getD_map_lt {β : Type} (l : List Nat) (g : Nat → β) (d : β) {i : Nat} (hi : i < l.length) : (l.map g).getD i d = g (l.getD i 0) := by
  rw [List.getD_eq_getElem?_getD, List.getD_eq_getElem?_getD, List.getElem?_map, List.getElem?_eq_getElem hi]
  rfl

theorem chanMean_fin (ids : List Nat) (g : Nat → ℝ) (k : Nat) (T : List Nat) (hT : Channels ids.length (k + 1) T) :
    chanMean (ids.map fun id => (.fin (g id) : Fl ℝ)) T = .fin ((T.map fun i => g (ids.getD i 0)).sum / (k + 1)) := by
  unfold chanMean chan
  rw [show (T.map fun i => (ids.map fun id => (.fin (g id) : Fl ℝ)).getD i .nan) = (T.map fun i => g (ids.getD i 0)).map Fl.fin by
    rw [List.map_map]
    refine List.map_congr_left fun i hi => ?_
    rw [getD_map_lt _ _ _ (hT.lt i hi)]
    rfl, Fl.sum_fin, hT.length]
  have : ((k + 1 : Nat) : ℝ) ≠ 0 := by positivity
  simp only [Fl.div, Nat.cast_add, Nat.cast_one] at this ⊢
  simp [this]

theorem chanMean_pinf (ids : List Nat) (k : Nat) (T : List Nat) (hT : Channels ids.length (k + 1) T) :
    chanMean (ids.map fun _ => (.pinf : Fl ℝ)) T = .pinf := by
  unfold chanMean chan
  rw [show (T.map fun i => (ids.map fun _ => (.pinf : Fl ℝ)).getD i .nan) = T.map fun _ => .pinf from
    List.map_congr_left fun i hi => by rw [getD_map_lt _ _ _ (hT.lt i hi)], hT.length]
  have h1 : ∀ T : List Nat, T ≠ [] → Fl.sum (T.map fun _ => (.pinf : Fl ℝ)) = .pinf := by
    intro T hT
    induction T with
    | nil => exact absurd rfl hT
    | cons x T ih =>
      rw [List.map_cons, Fl.sum_cons]
      cases T with
      | nil => rfl
      | cons y T => rw [ih (by simp)]; rfl
  rw [h1 T (by rintro rfl; have := hT.length; simp at this)]
  have : (0 : ℝ) < ((k + 1 : Nat) : ℝ) := by positivity
  simp [Fl.div]
  linarith

/-- The left, right and merged profile of a consumer for `w` places, the first of which is column `first`: `I k c P e` tells what is shown in row `k` for column `c` if `P`
are the rows to compare with. -/
structure Spec.ShowsWith (n w first : Nat) (done : Nat → Nat → Prop) (I : Nat → Nat → (Nat → Prop) → (Fl ℝ × Int × List Int) → Prop) (p : MDMP ℝ) : Prop where
  left : ∀ k < n, ∀ c < w, ∃ e, p.left.read k c = some e ∧ I k (c + first) (fun r => done r (c + first) ∧ r ≤ c + first) e
  right : ∀ k < n, ∀ c < w, ∃ e, p.right.read k c = some e ∧ I k (c + first) (fun r => done r (c + first) ∧ c + first < r) e
  merged : ∀ k < n, ∀ c < w, ∃ e, p.readMerged k c = some e ∧ I k (c + first) (fun r => done r (c + first)) e

theorem Spec.ShowsWith.imp {n w first : Nat} {done : Nat → Nat → Prop} {I J : Nat → Nat → (Nat → Prop) → (Fl ℝ × Int × List Int) → Prop} {p : MDMP ℝ}
    (h : ShowsWith n w first done I p) (hIJ : ∀ k < n, ∀ c P e, (∀ r, P r → done r c) → I k c P e → J k c P e) : ShowsWith n w first done J p := by
  refine ⟨fun k hk c hc => ?_, fun k hk c hc => ?_, fun k hk c hc => ?_⟩
  · obtain ⟨e, e1, e2⟩ := h.left k hk c hc
    exact ⟨e, e1, hIJ k hk _ _ e (fun _ h => h.1) e2⟩
  · obtain ⟨e, e1, e2⟩ := h.right k hk c hc
    exact ⟨e, e1, hIJ k hk _ _ e (fun _ h => h.1) e2⟩
  · obtain ⟨e, e1, e2⟩ := h.merged k hk c hc
    exact ⟨e, e1, hIJ k hk _ _ e (fun _ h => h) e2⟩

/-- Smallest means of values that may be `+inf`. -/
def MultiMinV (ids : List Nat) (V : Nat → Nat → Nat → Fl ℝ) (k c : Nat) (P : Nat → Prop) (e : Fl ℝ × Int × List Int) : Prop :=
  (∀ r, P r → ∀ T, Channels ids.length (k + 1) T → e.1 ≤ chanMean (ids.map fun id => V id r c) T) ∧
    (e = (.pinf, -1, List.replicate (k + 1) (-1)) ∨ ∃ r T, P r ∧ Channels ids.length (k + 1) T ∧
      e = (chanMean (ids.map fun id => V id r c) T, (r : Int), T.map fun i : Nat => (i : Int)) ∧ e.1 < .pinf)

/-- Values that are numbers. -/
theorem MultiMinV.multi {ids : List Nat} {V : Nat → Nat → Nat → Fl ℝ} {k c : Nat} (hk : k < ids.length) {P : Nat → Prop} {e : Fl ℝ × Int × List Int} (h : MultiMinV ids V k c P e)
    (F : Nat → Nat → ℝ) (hF : ∀ r, P r → ∀ id ∈ ids, V id r c = .fin (F id r)) : IsMultiMin ids.length k P (fun i r => F (ids.getD i 0) r) e := by
  have hvec : ∀ r, P r → (ids.map fun id => V id r c) = ids.map fun id => .fin (F id r) := fun r hr => List.map_congr_left fun id hid => hF r hr id hid
  have hlow : ∀ r, P r → ∀ T, Channels ids.length (k + 1) T → e.1 ≤ .fin ((T.map fun i => F (ids.getD i 0) r).sum / (k + 1)) := by
    intro r hr T hT
    have := h.1 r hr T hT
    rwa [hvec r hr, chanMean_fin ids (fun id => F id r) k T hT] at this
  refine ⟨hlow, ?_⟩
  rcases h.2 with a1 | ⟨r, T, hr, hT, a1, -⟩
  · left
    refine ⟨a1, fun r hr => ?_⟩
    have := hlow r hr (List.range (k + 1)) ⟨List.nodup_range, List.length_range, fun i hi => by have := List.mem_range.mp hi; omega⟩
    rw [a1] at this
    revert this
    simp
  · right
    rw [hvec r hr, chanMean_fin ids (fun id => F id r) k T hT] at a1
    exact ⟨r, T, hr, hT, a1⟩

/-- What the cells tell about rows. -/
theorem Spec.IsMDMin.multi {ids : List Nat} {k c : Nat} {P : Set (MCell ℝ)} {e : Fl ℝ × Int × List Int} (h : IsMDMin ids.length k P e) (Q : Nat → Prop)
    (V : Nat → Nat → Nat → Fl ℝ) (h1 : ∀ x ∈ P, (∃ r, Q r ∧ x.row = (r : Int) ∧ x.vec = ids.map fun id => V id r c) ∨ x.vec = ids.map fun _ => .pinf)
    (h2 : ∀ r, Q r → ∃ x ∈ P, x.vec = ids.map fun id => V id r c) : MultiMinV ids V k c Q e := by
  refine ⟨?_, ?_⟩
  · intro r hr T hT
    obtain ⟨x, hx, hv⟩ := h2 r hr
    have := h.lower x hx T hT
    rwa [hv] at this
  · rcases h.attained with ⟨a1, a2, a3⟩ | ⟨a1, x, hx, T, hT, a2, a3, a4⟩
    · left
      obtain ⟨e1, e2, e3⟩ := e; simp only at a1 a2 a3; rw [a1, a2, a3]
    · right
      rcases h1 x hx with ⟨r, hr, x1, x2⟩ | x2
      · refine ⟨r, T, hr, hT, ?_, a1⟩
        obtain ⟨e1, e2, e3⟩ := e
        simp only at a2 a3 a4
        rw [a4, a3, ← a2, x1, x2]
      · rw [a4, x2, chanMean_pinf ids k T hT] at a1
        exact absurd a1 (lt_irrefl _)

/-- From the cells to the pairs calculated. -/
theorem showsMulti {ids : List Nat} {S : Set (Int × Int × (Nat → Fl ℝ))} {t : MSeen ℝ} {u : Nat → Seen ℝ} (hS : Shape.Same ids S t u) {w : Nat} {p : MDMP ℝ}
    (h : MDAnswers ids.length w t p) (done : Nat → Nat → Prop) (V : Nat → Nat → Nat → Fl ℝ)
    (h1 : ∀ z ∈ S, ∃ r c : Nat, z.1 = (r : Int) ∧ z.2.1 = (c : Int) ∧
      ((done r c ∧ ids.map z.2.2 = ids.map fun id => V id r c) ∨ ids.map z.2.2 = ids.map fun _ => .pinf))
    (h2 : ∀ r c, c < w + t.ss → done r c → ∃ z ∈ S, z.1 = (r : Int) ∧ z.2.1 = (c : Int) ∧ ids.map z.2.2 = ids.map fun id => V id r c) :
    ShowsWith ids.length w t.ss done (MultiMinV ids V) p := by
  have main : ∀ (sel : Int → Int → Prop) (selN : Nat → Nat → Prop) (_ : ∀ r c : Nat, sel r c ↔ selN r c) (P : Set (MCell ℝ)) (c : Nat)
      (_ : ∀ x, x ∈ P ↔ x ∈ t.cells ∧ x.col = ((c + t.ss : Nat) : Int) ∧ sel x.row x.col) (k : Nat) (_ : k < ids.length) (_ : c < w)
      (e : Fl ℝ × Int × List Int), IsMDMin ids.length k P e →
        MultiMinV ids V k (c + t.ss) (fun r => done r (c + t.ss) ∧ selN r (c + t.ss)) e := by
    intro sel selN hsel P c hP k hk hcw e he
    refine he.multi _ V ?_ ?_
    · intro x hx
      obtain ⟨a1, a2, a3⟩ := (hP x).mp hx
      obtain ⟨z, hz, rfl⟩ := (hS.multi x).mp a1
      obtain ⟨r, c', z1, z2, a4⟩ := h1 z hz
      simp only at a2 a3
      have f2 : c' = c + t.ss := by rw [z2] at a2; exact_mod_cast a2
      subst f2
      rcases a4 with ⟨a4, a5⟩ | a4
      · refine .inl ⟨r, ⟨a4, ?_⟩, z1, a5⟩
        rw [z1, z2] at a3
        exact (hsel _ _).mp a3
      · exact .inr a4
    · rintro r ⟨hd, hsl⟩
      obtain ⟨z, hz, z1, z2, hv⟩ := h2 r (c + t.ss) (by omega) hd
      refine ⟨⟨z.1, z.2.1, ids.map z.2.2⟩, (hP _).mpr ⟨(hS.multi _).mpr ⟨z, hz, rfl⟩, z2, ?_⟩, hv⟩
      show sel z.1 z.2.1
      rw [z1, z2]; exact (hsel _ _).mpr hsl
  refine ⟨?_, ?_, ?_⟩
  · intro k hk c hc
    obtain ⟨e, g1, g2⟩ := h.left k hk c hc
    exact ⟨e, g1, main (fun r c => r ≤ c) (fun r c => r ≤ c) (fun r c => by omega) _ c (fun x => by simp only [MSeen.sel, Set.mem_ofPred_eq, decide_eq_true_eq]) k hk hc e g2⟩
  · intro k hk c hc
    obtain ⟨e, g1, g2⟩ := h.right k hk c hc
    exact ⟨e, g1, main (fun r c => c < r) (fun r c => c < r) (fun r c => by omega) _ c (fun x => by simp only [MSeen.sel, Set.mem_ofPred_eq, decide_eq_false_iff_not, not_le]) k hk hc e g2⟩
  · intro k hk c hc
    obtain ⟨e, g1, g2⟩ := h.merged k hk c hc
    have := main (fun _ _ => True) (fun _ _ => True) (fun r c => by simp) _ c (fun x => by simp [MSeen.col]) k hk hc e g2
    exact ⟨e, g1, by simpa only [and_true] using this⟩

/-! ### Feeding the consumer -/

theorem colsOf_map (ids : List Nat) (hne : ids ≠ []) (n : Nat) (f : Nat → Nat → Fl K) :
    colsOf (ids.map fun id => (List.range n).map (f id)) = (List.range n).map fun k => ids.map fun id => f id k := by
  unfold colsOf
  have : ((ids.map fun id => (List.range n).map (f id)).headD []).length = n := by
    cases ids with
    | nil => exact absurd rfl hne
    | cons x ids => simp
  rw [this]
  refine List.map_congr_left fun k hk => ?_
  rw [List.filterMap_map]
  rw [show ((fun row : List (Fl K) => row[k]?) ∘ fun id => (List.range n).map (f id)) = fun id => some (f id k) by
    funext id
    simp [List.getElem?_range (List.mem_range.mp hk)]]
  exact congrFun (List.filterMap_eq_map' (f := fun id => f id k)) ids

theorem MDMP.feed_eq [Field K] [LinearOrder K] (argsort : List (Fl K) → List Nat) (gops : GenOps G K) (ids : List Nat) (hne : ids ≠ []) (L : List (Shape K)) :
    ∀ (o : MDObj K) (p : MDMP K), o.st = some p →
      feed (MDMP.ops argsort gops) o (L.map (·.event ids)) = (p.run argsort ids.length (L.map (·.multi ids))).map fun p => { o with st := some p } := by
  induction L with
  | nil =>
    intro o p h
    show Except.ok o = Except.ok { o with st := some p }
    rw [← h]
  | cons x L ih =>
    intro o p h
    have e : (x.event ids).apply (MDMP.ops argsort gops) o = (p.deliver argsort ids.length (x.multi ids)).map fun p => { o with st := some p } := by
      obtain ⟨a1, a2, a3, a4, a5⟩ := o
      cases h
      cases x with
      | diag d n f =>
        show (MDMP.processDiagonal argsort p d (ids.map _).length (colsOf _)).map _ = _
        rw [colsOf_map ids hne, List.length_map]; rfl
      | column c n f =>
        show (MDMP.processColumn argsort p c (ids.map _).length (colsOf _)).map _ = _
        rw [colsOf_map ids hne, List.length_map]; rfl
      | shiftSeries n => rfl
      | shiftQuery n => rfl
    show (do feed _ (← (x.event ids).apply (MDMP.ops argsort gops) o) (L.map (·.event ids))) =
      ((p.deliver argsort ids.length (x.multi ids)).bind fun p => p.run argsort ids.length (L.map (·.multi ids))).map _
    rw [e]
    cases p.deliver argsort ids.length (x.multi ids) with
    | error e => rfl
    | ok p1 => exact ih _ p1 rfl

/-- A new object with proper memory and scaling factor. -/
structure MDObj.New (o : MDObj K) : Prop where
  memF : ∀ n, (o.memF n).length = n
  memI : ∀ n, (o.memI n).length = n
  memR : ∀ n, (o.memR n).length = n
  scale1 : 1 ≤ o.scale
  scale2 : o.scale ≤ 2
  new : o.st = none

/-- Histories without shifts. -/
theorem historyOk_noShift [Field K] [LinearOrder K] {D w : Nat} (ds : List (MDelivery K)) (h : ∀ x ∈ ds, match x with
      | .column c vals => ColumnOk D w c vals
      | .diag d vals => d.toNat + vals.length ≤ w ∧ (-d).toNat + vals.length ≤ w ∧ ∀ vec ∈ vals, vec.length = D ∧ ∀ x ∈ vec, .fin 0 ≤ x
      | _ => False) : ∀ t : MSeen K, t.ss = t.qs → HistoryOk D w t ds := by
  induction ds with
  | nil => intro t ht; trivial
  | cons x ds ih =>
    intro t ht
    have h0 := h x (List.mem_cons_self ..)
    have ih := ih fun y hy => h y (List.mem_cons_of_mem _ hy)
    cases x with
    | column c vals => exact ⟨h0, ih _ ht⟩
    | diag d vals => exact ⟨⟨h0.1, h0.2.1, h0.2.2, by rw [ht]; omega⟩, ih _ ht⟩
    | shiftSeries n => exact absurd h0 (by simp)
    | shiftQuery n => exact absurd h0 (by simp)

/-- A new `MultidimensionalMatrixProfileLR` that receives the calls of a batch calculation with values that are not negative. -/
theorem MDMP.batch_fed (argsort : List (Fl ℝ) → List Nat) (has : ∀ l, IsArgsort l (argsort l)) (gops : GenOps G ℝ) {o : MDObj ℝ} (hnew : o.New) {ids : List Nat} (hne : ids ≠ [])
    {m : Nat} {selfJoin : Bool} {b : Int} {order : List Int} {D : Nat → List α → List α → Fl ℝ} {s q : List α} {us : List BOp} {w : Nat} {V : Nat → Nat → Nat → Fl ℝ}
    {done : Nat → Nat → Prop} (hw : 0 < w) (hcells : ∀ id ∈ ids, CellsAre (V id) (q.length + 1 - m) w done (allDeliveries m selfJoin b order (D id) s q BSt.init us))
    (hV : ∀ id ∈ ids, ∀ r c, .fin 0 ≤ V id r c ∧ V id r c ≠ .nan) (hlong : ∀ n, .diagonals n ∈ us → q.length + 1 - m ≤ w) :
    ∃ p0 p', (MDMP.ops argsort gops).initialise o ids.length (q.length + 1 - m : Nat) w = .ok p0 ∧
      feed (MDMP.ops argsort gops) p0 (BSt.allEvents m selfJoin b order D s q ids BSt.init us) = .ok p' ∧
      ∃ p, p'.st = some p ∧ ShowsWith ids.length w 0 (fun r c => r < q.length + 1 - m ∧ done r c) (MultiMinV ids V) p := by
  obtain ⟨id0, hid0⟩ := List.exists_mem_of_ne_nil ids hne
  let L := allShapes m selfJoin b order D s q BSt.init us
  have hev : BSt.allEvents m selfJoin b order D s q ids BSt.init us = L.map (·.event ids) := (allShapes_event ..).symm
  have hdel : ∀ id, allDeliveries m selfJoin b order (D id) s q BSt.init us = L.map (·.delivery id) := fun id => (allShapes_delivery ..).symm
  have hhist : HistoryOk ids.length w MSeen.init (L.map (·.multi ids)) := by
    refine historyOk_noShift _ ?_ _ rfl
    intro y hy
    obtain ⟨x, hx, rfl⟩ := List.mem_map.mp hy
    have hval : ∀ id ∈ ids, (x.delivery id).Valid (q.length + 1 - m) w ∧ (x.delivery id).Of (V id) (q.length + 1 - m) := fun id h =>
      have hd : x.delivery id ∈ allDeliveries m selfJoin b order (D id) s q BSt.init us := by rw [hdel]; exact List.mem_map_of_mem hx
      ⟨(hcells id h).valid _ hd, (hcells id h).of _ hd⟩
    rcases mem_allShapes hx with ⟨d, n, f, rfl, k, hk⟩ | ⟨c, f, rfl⟩
    · have h1 := (hval id0 hid0).1
      simp only [Shape.delivery, Delivery.Valid, List.length_map, List.length_range] at h1
      have := hlong k hk
      refine ⟨by simpa using h1.2, by simp; omega, ?_⟩
      intro vec hv
      obtain ⟨j, hj, rfl⟩ := List.mem_map.mp hv
      refine ⟨by simp, fun z hz => ?_⟩
      obtain ⟨id, hid, rfl⟩ := List.mem_map.mp hz
      rw [(hval id hid).2 j (f id j) (by rw [List.getElem?_map, List.getElem?_range (List.mem_range.mp hj)]; rfl)]
      exact (hV id hid _ _).1
    · refine ⟨(hval id0 hid0).1.1, fun e => (hval id0 hid0).1.2.1 ?_, fun vec hv => ?_⟩
      · have := congrArg List.length e
        simp only [List.length_map, List.length_range, List.length_nil] at this
        rw [this]; rfl
      · obtain ⟨j, hj, rfl⟩ := List.mem_map.mp hv
        refine ⟨by simp, fun z hz => ?_⟩
        obtain ⟨id, hid, rfl⟩ := List.mem_map.mp hz
        have h2 : (List.range _).map (f id) = (List.range (q.length + 1 - m)).map fun r => V id r c := (hval id hid).2
        have h3 : f id j = V id j c := by
          have h4 := congrArg (·[j]?) h2
          simp only [List.getElem?_map] at h4
          rw [List.getElem?_range (List.mem_range.mp hj)] at h4
          simpa using h4
        rw [h3]
        refine ⟨fun e => ?_, (hV id hid _ _).2⟩
        have := (hV id hid j c).1
        rw [e] at this
        exact absurd this (by simp)
  obtain ⟨p, p', e1, e2, e3⟩ := C54_diagonals_partial argsort has o.memF o.memI o.memR hnew.memF hnew.memI hnew.memR o.scale hnew.scale1 hnew.scale2 ids.length w hw _ hhist
  obtain ⟨S, hS⟩ := Shape.Same.run L (Shape.Same.init (K := ℝ) ids)
  have hss : (MSeen.init.run (L.map (·.multi ids)) : MSeen ℝ).ss = 0 := by
    rw [← hS.ss id0]
    show (Seen.init.run (L.map (·.delivery id0))).ss = 0
    rw [← hdel, Seen.run_noShift _ (no_shift _ _ _ _ _ _ _ _ _)]
    rfl
  have hcell : ∀ id ∈ ids, ∀ z ∈ S, ∃ r c : Nat, r < q.length + 1 - m ∧ c < w ∧ z.1 = (r : Int) ∧ z.2.1 = (c : Int) ∧ z.2.2 id = V id r c ∧ (z.2.2 id = .pinf ∨ done r c) := by
    intro id hid z hz
    have hc := hcells id hid
    obtain ⟨g1, g2⟩ := mem_run_cells _ hc.valid hc.of
    have hy : (⟨z.1, z.2.1, z.2.2 id⟩ : Cell ℝ) ∈ (Seen.init.run (allDeliveries m selfJoin b order (D id) s q BSt.init us)).cells := by
      rw [hdel]; exact (hS.single id _).mpr ⟨z, hz, rfl⟩
    obtain ⟨r, c, hr, hcw, e⟩ := g1 _ hy
    simp only [Cell.mk.injEq] at e
    obtain ⟨d, hd, hx⟩ := (g2 _).mp hy
    have := hc.sound d hd _ hx
    simp only [e.1, e.2.1, Int.toNat_natCast] at this
    exact ⟨r, c, hr, hcw, e.1, e.2.1, e.2.2, this⟩
  have hdone : ∀ r < q.length + 1 - m, ∀ c < w, done r c → ∃ z ∈ S, z.1 = (r : Int) ∧ z.2.1 = (c : Int) := by
    intro r hr c hcw hd
    have hc := hcells id0 hid0
    obtain ⟨d, hd', x, hx, x1, x2⟩ := hc.complete r hr c hcw hd
    have := ((mem_run_cells _ hc.valid hc.of).2 x).mpr ⟨d, hd', hx⟩
    rw [hdel] at this
    obtain ⟨z, hz, e⟩ := (hS.single id0 x).mp this
    subst e
    exact ⟨z, hz, x1, x2⟩
  have hall : ∀ z ∈ S, ∃ r c : Nat, r < q.length + 1 - m ∧ c < w ∧ z.1 = (r : Int) ∧ z.2.1 = (c : Int) ∧
      ((done r c ∧ ids.map z.2.2 = ids.map fun id => V id r c) ∨ ids.map z.2.2 = ids.map fun _ => .pinf) := by
    intro z hz
    obtain ⟨r, c, hr, hc, z1, z2, -, -⟩ := hcell id0 hid0 z hz
    refine ⟨r, c, hr, hc, z1, z2, ?_⟩
    have key : ∀ id ∈ ids, z.2.2 id = V id r c ∧ (z.2.2 id = .pinf ∨ done r c) := by
      intro id hid
      obtain ⟨r', c', -, -, y1, y2, y3, y4⟩ := hcell id hid z hz
      have f1 : r' = r := by rw [z1] at y1; exact_mod_cast y1.symm
      have f2 : c' = c := by rw [z2] at y2; exact_mod_cast y2.symm
      subst f1 f2
      exact ⟨y3, y4⟩
    by_cases hd : done r c
    · exact .inl ⟨hd, List.map_congr_left fun id hid => (key id hid).1⟩
    · right
      refine List.map_congr_left fun id hid => (key id hid).2.resolve_right hd
  refine ⟨{ o with st := some p }, { o with st := some p' }, ?_, ?_, p', rfl, ?_⟩
  · show MDObj.initialise o ids.length (w : Int) = _
    unfold MDObj.initialise
    rw [if_neg (by omega), Int.toNat_natCast, e1, hnew.new]
    rfl
  · rw [hev, MDMP.feed_eq argsort _ ids hne L _ p rfl, e2]; rfl
  · have := showsMulti hS e3 (fun r c => r < q.length + 1 - m ∧ done r c) V ?_ ?_
    · rwa [hss] at this
    · intro z hz
      obtain ⟨r, c, hr, -, z1, z2, h⟩ := hall z hz
      exact ⟨r, c, z1, z2, h.imp_left fun h => ⟨⟨hr, h.1⟩, h.2⟩⟩
    · rintro r c hc ⟨hr, hd⟩
      rw [hss] at hc
      obtain ⟨z, hz, z1, z2⟩ := hdone r hr c hc hd
      refine ⟨z, hz, z1, z2, List.map_congr_left fun id hid => ?_⟩
      obtain ⟨r', c', -, -, y1, y2, y3, -⟩ := hcell id hid z hz
      have f1 : r' = r := by rw [z1] at y1; exact_mod_cast y1.symm
      have f2 : c' = c := by rw [z2] at y2; exact_mod_cast y2.symm
      subst f1 f2
      exact y3

/-- A new `MultidimensionalMatrixProfileLR` that receives the calls of a streaming calculation. -/
theorem MDMP.stream_fed (argsort : List (Fl ℝ) → List Nat) (has : ∀ l, IsArgsort l (argsort l)) (gops : GenOps G ℝ) {o : MDObj ℝ} (hnew : o.New) {ids : List Nat} (hne : ids ≠ [])
    {m N : Nat} {Mq : Option Nat} {b : Int} {D : Nat → List α → List α → Fl ℝ} {us : List (MOp α)} (hm0 : 0 < m) (hN : m ≤ N) (hM : ∀ M', Mq = some M' → m ≤ M')
    (hD : ∀ id ∈ ids, ∀ x y, D id x y ≠ .ninf ∧ D id x y ≠ .nan) (hv : MSt.init.All m N Mq (fun u op => u.Valid m Mq op) us) (h : Int) :
    ∃ p0 p', (MDMP.ops argsort gops).initialise o ids.length h (N + 1 - m : Nat) = .ok p0 ∧
      feed (MDMP.ops argsort gops) p0 (MSt.allEvents m N Mq b D ids MSt.init us) = .ok p' ∧
      ∃ p, p'.st = some p ∧ ShowsWith ids.length (N + 1 - m) ((MSt.init.run m N Mq us).s.length - N)
        (fun r c => (MSt.init.run m N Mq us).done r c ∧ ¬ ((r : Int) - c ≤ b ∧ (c : Int) - r ≤ b))
        (MultiMinV ids fun id r c => (MSt.init.run m N Mq us).cell (D id) m b r c) p := by
  obtain ⟨id0, hid0⟩ := List.exists_mem_of_ne_nil ids hne
  let u := MSt.init.run m N Mq us
  let L := allStreamShapes m N Mq b D MSt.init us
  have hev : MSt.allEvents m N Mq b D ids MSt.init us = L.map (·.event ids) := (allStreamShapes_event ..).symm
  have hdel : ∀ id, MSt.allDeliveries m N Mq b (D id) MSt.init us = L.map (·.delivery id) := fun id => (allStreamShapes_delivery ..).symm
  have hfits : ∀ id, SeenFits m N Mq b (D id) u (Seen.init.run (MSt.allDeliveries m N Mq b (D id) MSt.init us)) := fun id =>
    SeenFits.run hm0 us MSt.init Seen.init (SeenFits.init _ _ _ _ _) hv
  have hhist : ColumnsOnly ids.length (N + 1 - m) (L.map (·.multi ids)) := by
    intro y hy
    obtain ⟨x, hx, rfl⟩ := List.mem_map.mp hy
    have hval := (allDeliveries_valid hm0 (fun x y => (hD id0 hid0 x y).2) us MSt.init (fun _ => rfl) hM hN hv (x.delivery id0) (by rw [hdel]; exact List.mem_map_of_mem hx)).1
    rcases mem_allStreamShapes hx with ⟨n, rfl | rfl⟩ | ⟨c, n, u, ρ, γ, rfl⟩
    · trivial
    · trivial
    · refine ⟨hval.1, fun e => hval.2.1 ?_, fun vec hv => ?_⟩
      · have := congrArg List.length e
        simp only [List.length_map, List.length_range, List.length_nil] at this
        rw [this]; rfl
      · obtain ⟨j, hj, rfl⟩ := List.mem_map.mp hv
        refine ⟨by simp, fun z hz => ?_⟩
        obtain ⟨id, hid, rfl⟩ := List.mem_map.mp hz
        simp only [MSt.cell]
        split
        · simp
        · exact hD id hid _ _
  obtain ⟨p, p', e1, e2, e3⟩ := C53_columns_partial argsort has o.memF o.memI o.memR hnew.memF hnew.memI hnew.memR o.scale hnew.scale1 hnew.scale2 ids.length (N + 1 - m) (by omega) _ hhist
  obtain ⟨Z, hZ⟩ := Shape.Same.run L (Shape.Same.init (K := ℝ) ids)
  have hss : (MSeen.init.run (L.map (·.multi ids)) : MSeen ℝ).ss = u.s.length - N := by
    rw [← hZ.ss id0]
    show (Seen.init.run (L.map (·.delivery id0))).ss = _
    rw [← hdel]
    exact (hfits id0).ss
  have hcell : ∀ id ∈ ids, ∀ z ∈ Z, ∃ r c : Nat, u.done r c ∧ z.1 = (r : Int) ∧ z.2.1 = (c : Int) ∧ z.2.2 id = u.cell (D id) m b r c := by
    intro id hid z hz
    have hy : (⟨z.1, z.2.1, z.2.2 id⟩ : Cell ℝ) ∈ (Seen.init.run (MSt.allDeliveries m N Mq b (D id) MSt.init us)).cells := by
      rw [hdel]; exact (hZ.single id _).mpr ⟨z, hz, rfl⟩
    obtain ⟨r, c, hd, e⟩ := ((hfits id).mem _).mp hy
    simp only [Cell.mk.injEq] at e
    exact ⟨r, c, hd, e⟩
  have hvals : ∀ z ∈ Z, ∃ r c : Nat, u.done r c ∧ z.1 = (r : Int) ∧ z.2.1 = (c : Int) ∧ ids.map z.2.2 = ids.map fun id => u.cell (D id) m b r c := by
    intro z hz
    obtain ⟨r, c, hd, z1, z2, -⟩ := hcell id0 hid0 z hz
    refine ⟨r, c, hd, z1, z2, List.map_congr_left fun id hid => ?_⟩
    obtain ⟨r', c', -, y1, y2, y3⟩ := hcell id hid z hz
    have f1 : r' = r := by rw [z1] at y1; exact_mod_cast y1.symm
    have f2 : c' = c := by rw [z2] at y2; exact_mod_cast y2.symm
    subst f1 f2
    exact y3
  refine ⟨{ o with st := some p }, { o with st := some p' }, ?_, ?_, p', rfl, ?_⟩
  · show MDObj.initialise o ids.length ((N + 1 - m : Nat) : Int) = _
    unfold MDObj.initialise
    rw [if_neg (by omega), Int.toNat_natCast, e1, hnew.new]
    rfl
  · rw [hev, MDMP.feed_eq argsort _ ids hne L _ p rfl, e2]; rfl
  · have := showsMulti hZ e3 (fun r c => u.done r c ∧ ¬ ((r : Int) - c ≤ b ∧ (c : Int) - r ≤ b)) (fun id r c => u.cell (D id) m b r c) ?_ ?_
    · rwa [hss] at this
    · intro z hz
      obtain ⟨r, c, hd, z1, z2, hv⟩ := hvals z hz
      refine ⟨r, c, z1, z2, ?_⟩
      by_cases hf : (r : Int) - c ≤ b ∧ (c : Int) - r ≤ b
      · right
        rw [hv]
        refine List.map_congr_left fun id _ => ?_
        unfold MSt.cell
        rw [if_pos hf]
      · exact .inl ⟨⟨hd, hf⟩, hv⟩
    · rintro r c - ⟨hd, hf⟩
      have hy := ((hfits id0).mem _).mpr ⟨r, c, hd, rfl⟩
      rw [hdel] at hy
      obtain ⟨z, hz, e⟩ := (hZ.single id0 _).mp hy
      simp only [Cell.mk.injEq] at e
      refine ⟨z, hz, e.1.symm, e.2.1.symm, ?_⟩
      obtain ⟨r', c', -, y1, y2, hv⟩ := hvals z hz
      have f1 : r' = r := by rw [← e.1] at y1; exact_mod_cast y1.symm
      have f2 : c' = c := by rw [← e.2.1] at y2; exact_mod_cast y2.symm
      subst f1 f2
      exact hv

/-- Values that are numbers. -/
theorem Spec.ShowsWith.multi {ids : List Nat} {w first : Nat} {done : Nat → Nat → Prop} {V : Nat → Nat → Nat → Fl ℝ} {p : MDMP ℝ}
    (h : ShowsWith ids.length w first done (MultiMinV ids V) p) (F : Nat → Nat → Nat → ℝ) (hF : ∀ r c, done r c → ∀ id ∈ ids, V id r c = .fin (F id r c)) :
    ShowsMulti ids.length w first done (fun i => F (ids.getD i 0)) p := by
  have := h.imp (J := fun k c P e => IsMultiMin ids.length k P (fun i r => F (ids.getD i 0) r c) e)
    fun k hk c P e hP hI => hI.multi hk (fun id r => F id r c) fun r hr => hF r c (hP r hr)
  exact ⟨this.left, this.right, this.merged⟩

theorem streamValue_nonneg (π : Nat → α → ℝ) (m : Nat) (kinds : List (GenKind × Nat)) (id : Nat) (a b : List α) : 0 ≤ streamValue π m kinds id a b := by
  unfold streamValue
  split
  · rename_i k ch _
    cases k
    · exact Real.sqrt_nonneg _
    · exact Real.sqrt_nonneg _
  · exact le_rfl

/-- **C71, batch.** `MultidimensionalMatrixProfileLR` consumers of any generators (`ids`, at least one) of an `AnytimeCalculator` with any channels, after any sequence
of (partial, possibly interrupted) `calculate_diagonals` and `calculate_columns` calls: no call raises; row `k` of the profiles holds for every subsequence of the
series the smallest mean of `k + 1` of the distances over the pairs calculated so far and over all choices of `k + 1` generators, with the row and the generators
(numbers within `ids`) that attain it. Partial: if diagonals are calculated the query may not be longer than the series (`C71_long_query_raises`); Euclidean generators
when columns are calculated as in `C66_euclidean_nan`. -/
theorem C71_batch_partial (B : BatchCase α) (argsort : List (Fl ℝ) → List Nat) (has : ∀ l, IsArgsort l (argsort l)) (cs : List (MDObj ℝ × List Nat))
    (hcs : ∀ c ∈ cs, c.1.New ∧ c.2 ≠ []) (hB : B.Ok (cs.map (·.2))) (hlong : ∀ n, .diagonals n ∈ B.us → B.h ≤ B.w) :
    ∃ cons', B.result (MDMP.ops argsort) cs = .ok cons' ∧
      List.Forall₂ (fun c o => o.2 = c.2 ∧ ∃ p, o.1.st = some p ∧ ShowsMulti c.2.length B.w 0 (fun r c => r < B.h ∧ B.done r c) (fun i => B.value (c.2.getD i 0)) p) cs cons' := by
  refine BatchCase.consumers (B := B) (MDMP.ops argsort) (fun _ => rfl) cs hB (fun c o => ∃ p, o.st = some p ∧
    ShowsMulti c.2.length B.w 0 (fun r c => r < B.h ∧ B.done r c) (fun i => B.value (c.2.getD i 0)) p) ?_
  rintro ⟨o, ids⟩ hm
  obtain ⟨hnew, hne⟩ := hcs _ hm
  have hids : ∀ id ∈ ids, id < B.kinds.length := fun id h => hB.id_lt (List.mem_map_of_mem (f := Prod.snd) hm) h
  obtain ⟨p0, p', e1, e2, p, e3, e4⟩ := MDMP.batch_fed argsort has (GenKind.ops B.memE B.memZ) hnew hne hB.w_pos (fun id hid => hB.cells (hids id hid)) (fun id _ r c => by
    unfold BatchCase.masked
    split
    · exact ⟨(Fl.le_pinf_iff _).mpr (by simp), by simp⟩
    · exact ⟨(Fl.fin_le_fin _ _).mpr (streamValue_nonneg _ _ _ _ _ _), by simp⟩) hlong
  exact ⟨p0, p', e1, e2, p, e3, e4.multi B.value fun r c hd id _ => hB.masked_done hd.2⟩

/-- The distance of the pair (`r`, `c`) of positions in the streams by generator `id`. -/
noncomputable def StreamCase.dist (S : StreamCase α) (id r c : Nat) : ℝ :=
  streamValue S.π S.m S.kinds id ((S.last.s.drop c).take S.m) ((S.last.q.drop r).take S.m)

/-- Was the distance of the pair calculated (outside of the trivial match band)? -/
def StreamCase.done (S : StreamCase α) (r c : Nat) : Prop := S.last.done r c ∧ ¬ ((r : Int) - c ≤ S.b ∧ (c : Int) - r ≤ S.b)

/-- **C71, streaming.** `MultidimensionalMatrixProfileLR` consumers of any generators (`ids`, at least one) of a `StreamingCalculator`, after any sequence of
`append_series`, `append_query` and (possibly interrupted) `calculate_columns` calls: no call raises; row `k` of the profiles holds for every subsequence in the series
window the smallest mean of `k + 1` of the distances over the pairs calculated so far, also those whose row has left the query window, and over all choices of `k + 1`
generators, with the stream position of the row and the generators (numbers within `ids`) that attain it. Partial: Euclidean generators as in
`C62_euclidean_nan`. -/
theorem C71_streaming_partial (S : StreamCase α) (argsort : List (Fl ℝ) → List Nat) (has : ∀ l, IsArgsort l (argsort l)) (cs : List (MDObj ℝ × List Nat))
    (hcs : ∀ c ∈ cs, c.1.New ∧ c.2 ≠ []) (hS : S.Ok (cs.map (·.2))) :
    ∃ cons', S.result (MDMP.ops argsort) cs = .ok cons' ∧
      List.Forall₂ (fun c o => o.2 = c.2 ∧ ∃ p, o.1.st = some p ∧ ShowsMulti c.2.length S.w (S.last.s.length - S.N) S.done (fun i => S.dist (c.2.getD i 0)) p) cs cons' := by
  refine StreamCase.consumers (S := S) (MDMP.ops argsort) (fun _ => rfl) cs hS (fun c o => ∃ p, o.st = some p ∧
    ShowsMulti c.2.length S.w (S.last.s.length - S.N) S.done (fun i => S.dist (c.2.getD i 0)) p) ?_
  rintro ⟨o, ids⟩ hm
  obtain ⟨hnew, hne⟩ := hcs _ hm
  have hids : ∀ id ∈ ids, id < S.kinds.length := fun id h => hS.id_lt (List.mem_map_of_mem (f := Prod.snd) hm) h
  obtain ⟨p0, p', e1, e2, p, e3, e4⟩ := MDMP.stream_fed argsort has (GenKind.ops S.memE S.memZ) (b := S.b) (D := streamDist S.π S.m S.kinds) hnew hne hS.args.pos hS.args.series
    hS.args.query (fun id hid x y => by rw [streamDist_value _ _ _ _ (hids id hid)]; simp) hS.valid (S.h : Int)
  refine ⟨p0, p', e1, e2, p, e3, e4.multi S.dist fun r c hd id hid => ?_⟩
  unfold MSt.cell
  rw [if_neg hd.2, streamDist_value _ _ _ _ (hids id hid)]
  rfl

/-! ### Concrete cases -/

/-- A new object. -/
def exMDObj (K : Type) : MDObj K := ⟨3 / 2, fun n => List.replicate n [], fun n => List.replicate n [], fun n => List.replicate n 7, none⟩

theorem exMDObj_new (K : Type) : (exMDObj K).New :=
  ⟨fun n => List.length_replicate, fun n => List.length_replicate, fun n => List.length_replicate, show (1 : ℚ) ≤ 3 / 2 by norm_num, show (3 / 2 : ℚ) ≤ 2 by norm_num, rfl⟩

example : ∃ a b, exBatch.result (MDMP.ops exArgsort) [(exMDObj ℝ, [2, 0]), (exMDObj ℝ, [0])] = .ok [(a, [2, 0]), (b, [0])] := by
  obtain ⟨cons', h1, h2⟩ := C71_batch_partial exBatch exArgsort exArgsort_ok [(exMDObj ℝ, [2, 0]), (exMDObj ℝ, [0])] (by simp [exMDObj_new])
    (exBatch_ok (by simp) (by simp) (by simp)) (fun _ _ => le_refl _)
  cases h2 with
  | @cons _ x _ _ p1 h2 => cases h2 with
    | @cons _ y _ _ p2 h2 => cases h2 with
      | nil =>
        obtain ⟨a, _⟩ := x
        obtain ⟨b, _⟩ := y
        obtain ⟨rfl, p1⟩ := p1
        obtain ⟨rfl, p2⟩ := p2
        exact ⟨a, b, h1⟩

example : ∃ a b, exStreamCase.result (MDMP.ops exArgsort) [(exMDObj ℝ, [2, 0]), (exMDObj ℝ, [0])] = .ok [(a, [2, 0]), (b, [0])] := by
  obtain ⟨cons', h1, h2⟩ := C71_streaming_partial exStreamCase exArgsort exArgsort_ok [(exMDObj ℝ, [2, 0]), (exMDObj ℝ, [0])] (by simp [exMDObj_new])
    (exStreamCase_ok (by simp) (by simp) (by simp))
  cases h2 with
  | @cons _ x _ _ p1 h2 => cases h2 with
    | @cons _ y _ _ p2 h2 => cases h2 with
      | nil =>
        obtain ⟨a, _⟩ := x
        obtain ⟨b, _⟩ := y
        obtain ⟨rfl, p1⟩ := p1
        obtain ⟨rfl, p2⟩ := p2
        exact ⟨a, b, h1⟩

/-- Merged values, rows and dimensions of a consumer of two generators with squared distances, `m = 1`. -/
def exMultiRun (o : MDObj ℚ) (series : List (List (Fl ℚ))) (query : Option (List (List (Fl ℚ)))) (calls : List Anytime.Op) : Except PyErr (List (List (Option (Fl ℚ × Int × List Int)))) :=
  (batchAll (MDMP.ops exArgsort (Eucl.genOps zeroMem (fun x : ℚ => x))) List.reverse [(Eucl.prepare zeroMem, 0), (Eucl.prepare zeroMem, 1)] [(o, [1, 0])] [0, 1] 1 series query (some 0)
    calls).map fun l => l.map fun c => match c.1.st with
      | none => []
      | some p => (List.range 2).flatMap fun k => (List.range 2).map fun c => p.readMerged k c

/-- All diagonals, and the same data in columns. -/
example : (exMultiRun (exMDObj ℚ) [[.fin 1, .fin 5], [.fin 2, .fin 0]] (some [[.fin 4, .fin 7], [.fin 0, .fin 1]]) [.diagonals (fun _ => false) (.float (.fin 1))],
    exMultiRun (exMDObj ℚ) [[.fin 1, .fin 5], [.fin 2, .fin 0]] (some [[.fin 4, .fin 7], [.fin 0, .fin 1]]) [.columns (fun _ => false) none (.float (.fin 1))]) =
    (.ok [[some (.fin 1, 1, [0]), some (.fin 0, 0, [0]), some (.fin (13 / 2), 0, [0, 1]), some (.fin (1 / 2), 0, [0, 1])]],
     .ok [[some (.fin 1, 1, [0]), some (.fin 0, 0, [0]), some (.fin (13 / 2), 0, [0, 1]), some (.fin (1 / 2), 0, [0, 1])]]) := by
  decide +kernel

/-- **C71 fails if the query is longer than the series** and diagonals are calculated. -/
theorem C71_long_query_raises : exMultiRun (exMDObj ℚ) [[.fin 1, .fin 5], [.fin 2, .fin 0]] (some [[.fin 4, .fin 7, .fin 2], [.fin 0, .fin 1, .fin 2]])
    [.diagonals (fun _ => false) (.float (.fin 1))] = .error .indexError := by
  decide +kernel

/-- **C71 fails for objects that were used before**: `initialise` does not reset the shifts. -/
theorem C71_reused_raises : ((MDMP.initialise (exMDObj ℚ).memF (exMDObj ℚ).memI (exMDObj ℚ).memR 1 2 2).map fun p =>
    exMultiRun { exMDObj ℚ with st := some { p with queryShift := 1 } } [[.fin 1, .fin 5], [.fin 2, .fin 0]] (some [[.fin 4, .fin 7], [.fin 0, .fin 1]])
      [.diagonals (fun _ => false) (.float (.fin 1))]) = .ok (.error .indexError) := by
  decide +kernel

end Verif
