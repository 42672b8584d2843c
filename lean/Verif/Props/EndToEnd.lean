import Verif.Lemmas.EndToEnd

/-!
# C60: the matrix profile of a complete calculation is the brute-force one
-/

namespace Verif
open Spec
variable {G K : Type}

/-- A delivery as an event. -/
def Spec.Delivery.event : Delivery K → CEvent K
  | .diag d v => .diagonal d [v]
  | .column c v => .column c [v]
  | .shiftSeries n => .shiftSeries n
  | .shiftQuery n => .shiftQuery n

section
variable [LinearOrder K]

theorem MP.feed_eq (gops : GenOps G K) (ds : List (Delivery K)) (hns : ∀ d ∈ ds, ∀ n, d ≠ .shiftSeries n ∧ d ≠ .shiftQuery n) :
    ∀ p : MP K, feed (MP.ops gops) p (ds.map Delivery.event) = p.run ds := by
  induction ds with
  | nil => intro p; rfl
  | cons d ds ih =>
    intro p
    have e : (Delivery.event d).apply (MP.ops gops) p = p.deliver d := by
      cases d with
      | diag d v => rfl
      | column c v => rfl
      | shiftSeries n => exact absurd rfl (hns _ (by simp) n).1
      | shiftQuery n => exact absurd rfl (hns _ (by simp) n).2
    rw [List.map_cons, feed, e, MP.run, List.foldlM_cons]
    congr 1
    funext p'
    exact ih (fun d hd => hns d (by simp [hd])) p'

/-- A history that delivers exactly the cells that count (apart from `+inf`s) gives the nearest neighbours. -/
theorem MP.nearest (A : Nat → Nat → K) (h w : Nat) (B : Nat → Nat → Fl K) (far : Nat → Nat → Prop)
    (hB : ∀ r < h, ∀ c < w, B r c = .fin (A r c) ∨ (B r c = .pinf ∧ ¬ far r c)) (ds : List (Delivery K)) (hv : ∀ d ∈ ds, d.Valid h w)
    (ho : ∀ d ∈ ds, d.Of B h) (h1 : ∀ d ∈ ds, ∀ x ∈ d.cells 0 0, x.val = .pinf ∨ far x.row.toNat x.col.toNat)
    (h2 : ∀ r < h, ∀ c < w, far r c → ∃ d ∈ ds, ∃ x ∈ d.cells 0 0, x.row = (r : Int) ∧ x.col = (c : Int)) :
    ∃ p p' : MP K, MP.initialise h w = .ok p ∧ p.run ds = .ok p' ∧ p'.left.length = w ∧ p'.right.length = w ∧
      ∀ c < w, ∃ l r v li ri i, p'.left[c]? = some l ∧ p'.right[c]? = some r ∧ (MP.merged p'.left p'.right)[c]? = some v ∧
        p'.leftIdx[c]? = some li ∧ p'.rightIdx[c]? = some ri ∧ (MP.mergedIdx p'.left p'.right p'.leftIdx p'.rightIdx)[c]? = some i ∧
        IsNearest (fun r => A r c) h (fun r => far r c ∧ r ≤ c) l li ∧ IsNearest (fun r => A r c) h (fun r => far r c ∧ c < r) r ri ∧
        IsNearest (fun r => A r c) h (fun r => far r c) v i := by
  have hA : ∀ i < h, ∀ j < w, B i j ≠ .nan := by
    intro i hi j hj
    rcases hB i hi j hj with e | ⟨e, -⟩ <;> rw [e] <;> simp
  obtain ⟨p, p', g1, g2, g3, g4, g5⟩ := C39_any_mix B h w hA ds hv ho
  obtain ⟨hcells, hmem⟩ := mem_run_cells ds hv ho
  refine ⟨p, p', g1, g2, g3, g4, fun c hcw => ?_⟩
  have key : ∀ (left : Bool) (side : Nat → Prop), (∀ r : Nat, side r ↔ decide ((r : Int) ≤ (c : Int)) = left) → ∀ v i,
      IsMin (entriesFor (Seen.init.run ds).cells c left) v i → IsNearest (fun r => A r c) h (fun r => far r c ∧ side r) v i := by
    intro left side hs v i hm
    have hlow : ∀ r < h, far r c → side r → v ≤ .fin (A r c) := by
      intro r hr hf hsr
      obtain ⟨d, hd, ⟨xr, xc, xv⟩, hx, rfl, rfl⟩ := h2 r hr c hcw hf
      have hx := (hmem _).mpr ⟨d, hd, hx⟩
      have hx' := hx
      obtain ⟨r', c', -, -, e⟩ := hcells _ hx
      simp only [Cell.mk.injEq] at e
      obtain ⟨e1, e2, rfl⟩ := e
      have e1 : r = r' := by omega
      have e2 : c = c' := by omega
      subst e1 e2
      have hl := hm.lower (B r c, (r : Int)) ((mem_entriesFor _ _ _ _ _).mpr ⟨hx', (hs r).mp hsr⟩)
      rcases hB r hr c hcw with e | ⟨-, e⟩
      · rwa [e] at hl
      · exact absurd hf e
    have hinf : v = .pinf → ∀ r < h, ¬ (far r c ∧ side r) := by
      rintro rfl r hr ⟨hf, hsr⟩
      have := hlow r hr hf hsr
      exact absurd this (by simp)
    rcases hm.attained with ⟨e, -⟩ | hmem'
    · exact .inl ⟨e, hinf e⟩
    · obtain ⟨m1, m2⟩ := (mem_entriesFor _ _ _ _ _).mp hmem'
      obtain ⟨r, c', hr, hc', e⟩ := hcells _ m1
      simp only [Cell.mk.injEq] at e
      obtain ⟨rfl, e2, rfl⟩ := e
      have e2 : c = c' := by omega
      subst e2
      obtain ⟨d, hd, hx⟩ := (hmem _).mp m1
      rcases h1 d hd _ hx with e | hf
      · exact .inl ⟨e, hinf e⟩
      · have hf : far r c := by simpa using hf
        rcases hB r hr c hcw with e | ⟨-, e⟩
        · refine .inr ⟨r, hr, ⟨hf, (hs r).mpr m2⟩, e, rfl, fun r' hr' hf' => ?_⟩
          have := hlow r' hr' hf'.1 hf'.2
          rw [e] at this
          simpa using this
        · exact absurd hf e
  obtain ⟨⟨l, li, a1, a2, a3⟩, ⟨r, ri, b1, b2, b3⟩⟩ := g5 c hcw
  obtain ⟨m1, m2⟩ := MP.merged_get _ _ _ _ c l r li ri a1 b1 a2 b2
  have kl := key true (fun r => r ≤ c) (fun r => by simp) l li a3
  have kr := key false (fun r => c < r) (fun r => by simp) r ri b3
  refine ⟨l, r, _, li, ri, _, a1, b1, m1, a2, b2, m2, kl, kr, ?_⟩
  by_cases hlt : Fl.ltF l r
  · rw [if_pos hlt, if_pos hlt]
    rw [Fl.ltF_iff] at hlt
    rcases kl with ⟨rfl, -⟩ | ⟨x, hx, ⟨hf, -⟩, rfl, rfl, hmin⟩
    · exact absurd hlt.1 (not_lt.mpr ((Fl.le_pinf_iff _).mpr b3.number))
    · refine .inr ⟨x, hx, hf, rfl, rfl, fun r' hr' hf' => ?_⟩
      by_cases hside : r' ≤ c
      · exact hmin r' hr' ⟨hf', hside⟩
      · rcases kr with ⟨-, hno⟩ | ⟨y, hy, -, rfl, -, hmin'⟩
        · exact absurd ⟨hf', by omega⟩ (hno r' hr')
        · have := hmin' r' hr' ⟨hf', by omega⟩
          have h3 : A x c < A y c := by simpa using hlt.1
          exact h3.le.trans this
  · rw [if_neg hlt, if_neg hlt]
    rw [Bool.not_eq_true, Fl.ltF_false_iff _ _ b3.number] at hlt
    rcases kr with ⟨rfl, hno⟩ | ⟨y, hy, ⟨hf, -⟩, rfl, rfl, hmin⟩
    · refine .inl ⟨rfl, fun r' hr' hf' => ?_⟩
      by_cases hside : r' ≤ c
      · rcases kl with ⟨-, hno'⟩ | ⟨x, -, -, rfl, -⟩
        · exact hno' r' hr' ⟨hf', hside⟩
        · exact absurd (Fl.fin_lt_pinf _) (not_lt.mpr hlt)
      · exact hno r' hr' ⟨hf', by omega⟩
    · refine .inr ⟨y, hy, hf, rfl, rfl, fun r' hr' hf' => ?_⟩
      by_cases hside : r' ≤ c
      · rcases kl with ⟨-, hno'⟩ | ⟨x, hx, -, rfl, -, hmin'⟩
        · exact absurd ⟨hf', hside⟩ (hno' r' hr')
        · have := hmin' r' hr' ⟨hf', hside⟩
          have h3 : A y c ≤ A x c := by simpa using hlt
          exact h3.trans this
      · exact hmin r' hr' ⟨hf', by omega⟩

/-- The deliveries of the diagonals `xs`. -/
def diagDeliveries (D : List K → List K → Fl K) (m : Nat) (s q : List K) (selfJoin : Bool) (xs : List Int) : List (Delivery K) :=
  xs.flatMap fun d => .diag d (diagRow D m s q d) :: if selfJoin then [.diag (-d) (diagRow D m s q d)] else []

omit [LinearOrder K] in
theorem diagDeliveries_events (D : List K → List K → Fl K) (m : Nat) (s q : List K) (selfJoin : Bool) (xs : List Int) :
    (diagDeliveries D m s q selfJoin xs).map Delivery.event = diagEvents D m s q selfJoin xs := by
  unfold diagDeliveries diagEvents
  rw [List.map_flatMap]
  congr 1
  funext d
  unfold diagEvs
  cases selfJoin <;> rfl

omit [LinearOrder K] in
theorem mem_diagDeliveries {D : List K → List K → Fl K} {m : Nat} {s q : List K} {selfJoin : Bool} {xs : List Int} {x : Delivery K}
    (h : x ∈ diagDeliveries D m s q selfJoin xs) : ∃ d ∈ xs, x = .diag d (diagRow D m s q d) ∨ (selfJoin = true ∧ x = .diag (-d) (diagRow D m s q d)) := by
  obtain ⟨d, hd, h⟩ := List.mem_flatMap.mp h
  refine ⟨d, hd, ?_⟩
  cases selfJoin with
  | false => left; simpa using h
  | true => simpa using h

omit [LinearOrder K] in
theorem diagRow_length (D : List K → List K → Fl K) (m : Nat) (s q : List K) (d : Int) :
    (diagRow D m s q d).length = diagEntries m q.length s.length d := by simp [diagRow]

omit [LinearOrder K] in
/-- What the diagonals `xs` of an assembled calculator deliver: parts of the distance matrix, covering the diagonals `xs` (and `-xs`). -/
theorem diagDeliveries_ok (D : List K → List K → Fl K) (m : Nat) (hm0 : 0 < m) (s q : List K) (hs : m ≤ s.length) (hq : m ≤ q.length)
    (selfJoin : Bool) (hself : selfJoin = true → q = s) (hsym : selfJoin = true → ∀ a b, D a b = D b a) (xs : List Int)
    (hx : ∀ d ∈ xs, d + m ≤ s.length ∧ -d + m ≤ q.length ∧ (selfJoin = true → 0 ≤ d)) :
    let ds := diagDeliveries D m s q selfJoin xs
    (∀ x ∈ ds, x.IsDiag) ∧ (∀ x ∈ ds, x.Valid (q.length + 1 - m) (s.length + 1 - m)) ∧
      (∀ x ∈ ds, x.Of (fun r c => D (win m s c) (win m q r)) (q.length + 1 - m)) ∧
      (∀ x ∈ ds, ∀ y ∈ x.cells 0 0, ∃ d ∈ xs, y.col - y.row = d ∨ (selfJoin = true ∧ y.row - y.col = d)) ∧
      (∀ r < q.length + 1 - m, ∀ c < s.length + 1 - m, ((c : Int) - r ∈ xs ∨ (selfJoin = true ∧ (r : Int) - c ∈ xs)) →
        ∃ x ∈ ds, ∃ y ∈ x.cells 0 0, y.row = (r : Int) ∧ y.col = (c : Int)) := by
  intro ds
  have hlen := diagRow_length D m s q
  refine ⟨?_, ?_, ?_, ?_, ?_⟩
  · intro x hxm
    obtain ⟨d, -, rfl | ⟨-, rfl⟩⟩ := mem_diagDeliveries hxm <;> trivial
  · intro x hxm
    obtain ⟨d, hd, rfl | ⟨hj, rfl⟩⟩ := mem_diagDeliveries hxm
    · have := hx d hd
      simp only [Delivery.Valid, hlen, diagEntries]
      omega
    · have h1 := hx d hd
      have h2 := hself hj
      have h3 := h1.2.2 hj
      subst h2
      simp only [Delivery.Valid, hlen, diagEntries]
      omega
  · intro x hxm
    obtain ⟨d, hd, rfl | ⟨hj, rfl⟩⟩ := mem_diagDeliveries hxm
    · intro k v hk
      have hkl := (List.getElem?_eq_some_iff.mp hk).1
      rw [hlen] at hkl
      rw [diagRow, List.getElem?_map, List.getElem?_range hkl] at hk
      simpa using hk.symm
    · intro k v hk
      have h2 := hself hj
      subst h2
      have hkl := (List.getElem?_eq_some_iff.mp hk).1
      rw [hlen] at hkl
      rw [diagRow, List.getElem?_map, List.getElem?_range hkl] at hk
      have hk : D (win m q (d.toNat + k)) (win m q ((-d).toNat + k)) = v := by simpa using hk
      rw [neg_neg, ← hk]
      exact hsym hj _ _
  · intro x hxm y hy
    obtain ⟨d, hd, rfl | ⟨hj, rfl⟩⟩ := mem_diagDeliveries hxm
    · refine ⟨d, hd, .inl ?_⟩
      obtain ⟨z, -, rfl⟩ := List.mem_map.mp hy
      simp only
      omega
    · refine ⟨d, hd, .inr ⟨hj, ?_⟩⟩
      obtain ⟨z, -, rfl⟩ := List.mem_map.mp hy
      simp only
      omega
  · intro r hr c hc hd
    have cell : ∀ (d : Int) (v : List (Fl K)) (k : Nat), k < v.length → (r : Int) = ((-d).toNat + k : Nat) → (c : Int) = (d.toNat + k : Nat) →
        ∃ y ∈ (Delivery.diag d v).cells 0 0, y.row = (r : Int) ∧ y.col = (c : Int) := by
      intro d v k hk h1 h2
      refine ⟨⟨(r : Int), (c : Int), v[k]⟩, ?_, rfl, rfl⟩
      refine List.mem_map.mpr ⟨(v[k], k), ?_, ?_⟩
      · rw [List.mem_zipIdx_iff_getElem?]; exact List.getElem?_eq_getElem hk
      · simp only [Cell.mk.injEq, and_true]
        omega
    rcases hd with hd | ⟨hj, hd⟩
    · have := hx _ hd
      obtain ⟨y, h1, h2⟩ := cell ((c : Int) - r) (diagRow D m s q ((c : Int) - r)) (min r c) (by rw [hlen, diagEntries]; omega) (by omega) (by omega)
      exact ⟨_, List.mem_flatMap.mpr ⟨_, hd, by simp⟩, y, h1, h2⟩
    · have := hx _ hd
      have h2 := hself hj
      subst h2
      obtain ⟨y, h1, h2⟩ := cell (-((r : Int) - c)) (diagRow D m q q ((r : Int) - c)) (min r c) (by rw [hlen, diagEntries]; omega) (by omega) (by omega)
      exact ⟨_, List.mem_flatMap.mpr ⟨_, hd, by simp [hj]⟩, y, h1, h2⟩

theorem abs_lt_iff_not (b : Int) (x : Int) : b < |x| ↔ ¬ (x ≤ b ∧ -x ≤ b) := by
  rw [← not_le, abs_le]
  constructor
  · rintro h ⟨h1, h2⟩; exact h ⟨by omega, h1⟩
  · rintro h ⟨h1, h2⟩; exact h ⟨h2, by omega⟩

/-- What a complete calculation with any serving generator gives. -/
structure Spec.IsProfile (d : Nat → Nat → K) (h w : Nat) (far : Nat → Nat → Prop) (p : MP K) : Prop where
  lengths : p.left.length = w ∧ p.right.length = w
  entries : ∀ c < w, ∃ l r v li ri i, p.left[c]? = some l ∧ p.right[c]? = some r ∧ (MP.merged p.left p.right)[c]? = some v ∧
    p.leftIdx[c]? = some li ∧ p.rightIdx[c]? = some ri ∧ (MP.mergedIdx p.left p.right p.leftIdx p.rightIdx)[c]? = some i ∧
    IsNearest (fun r => d r c) h (fun r => far r c ∧ r ≤ c) l li ∧ IsNearest (fun r => d r c) h (fun r => far r c ∧ c < r) r ri ∧
    IsNearest (fun r => d r c) h (fun r => far r c) v i

theorem profile_diagonals {gops : GenOps G K} {m : Nat} {N : Nat} {M : Option Nat} {δ : List K → List K → K} {Ok : GSt K → GOp K → Prop}
    {Inv : G → GSt K → Prop} (H : Serves gops m N M (fun a b => .fin (δ a b)) Ok Inv) (hsym : ∀ a b, δ a b = δ b a)
    (prepare : Int → List (Fl K) → Option (List (Fl K)) → Except PyErr G)
    (shuffle : List Int → List Int) (hsh : ∀ l, (shuffle l).Perm l) (hm0 : 0 < m) (s : List K) (q : Option (List K)) (hm : m ≤ s.length)
    (hq : ∀ q', q = some q' → m ≤ q'.length) (buffer : Option Int)
    (hb : q = none → -1 ≤ buffer.getD (m / 2) ∧ buffer.getD (m / 2) < ((s.length + 1 - m : Nat) : Int)) (g : G)
    (hg : prepare m (s.map .fin) (q.map (·.map .fin)) = .ok g) (hi : Inv g ⟨s, q.getD s, none⟩)
    (hOk : ∀ d, (GSt.mk s (q.getD s) none).Valid m M (.diag d) → Ok ⟨s, q.getD s, none⟩ (.diag d)) :
    ∃ p, matrixProfile gops prepare shuffle false m (s.map .fin) (q.map (·.map .fin)) buffer = .ok p ∧
      IsProfile (fun r c => δ (win m s c) (win m (q.getD s) r)) ((q.getD s).length + 1 - m) (s.length + 1 - m)
        (fun r c => q = none → Apart (buffer.getD (m / 2)) r c) p := by
  have hql : m ≤ (q.getD s).length := by
    cases q with
    | none => exact hm
    | some q' => exact hq q' rfl
  have hself : q.isNone = true → q.getD s = s := by cases q <;> simp
  obtain ⟨p0, i1, -⟩ := MP.initialise_rep (K := K) ((q.getD s).length + 1 - m) (s.length + 1 - m)
  obtain ⟨st, h1, ha⟩ := assemble_ok (MP.ops gops) prepare shuffle hsh [MP.new] [p0] m hm0 s q buffer hm hq g hg hb (by simp)
    (List.Forall₂.cons i1 List.Forall₂.nil)
  have hbuf : -1 ≤ (if q.isNone then buffer.getD ((m : Int) / 2) else -1) := by
    cases q with
    | none => simpa using (hb rfl).1
    | some q' => simp
  have hord : ∀ d, d ∈ st.order ↔ if q.isNone then buffer.getD ((m : Int) / 2) + 1 ≤ d ∧ d < ((s.length + 1 - m : Nat) : Int)
      else -(((q.getD s).length + 1 - m : Nat) : Int) + 1 ≤ d ∧ d < ((s.length + 1 - m : Nat) : Int) := by
    intro d
    rw [ha.valid.order.mem_iff]
    unfold Anytime.diagonals
    rw [ha.self, ha.rows, ha.cols, ha.buf]
    cases q <;> simp [mem_pyRange]
  have hx : ∀ d ∈ st.order, d + m ≤ s.length ∧ -d + m ≤ (q.getD s).length ∧ (q.isNone = true → 0 ≤ d) := by
    intro d hd
    rw [hord] at hd
    cases q with
    | none =>
      have := hb rfl
      simp only [Option.isNone_none, if_true] at hd
      simp only [Option.getD_none]
      omega
    | some q' =>
      simp only [Option.isNone_some, Bool.false_eq_true, if_false] at hd
      simp only [Option.getD_some] at hd hql ⊢
      simp
      omega
  obtain ⟨k1, k2, k3, k4, k5⟩ := diagDeliveries_ok (fun a b => .fin (δ a b)) m hm0 s (q.getD s) hm hql q.isNone hself
    (fun _ a b => by rw [hsym]) st.order hx
  obtain ⟨p1, p2, n1, n2, n3, n4, n5⟩ := MP.nearest (fun r c => δ (win m s c) (win m (q.getD s) r)) ((q.getD s).length + 1 - m) (s.length + 1 - m)
    (fun r c => .fin (δ (win m s c) (win m (q.getD s) r))) (fun r c => q = none → Apart (buffer.getD (m / 2)) r c)
    (fun r hr c hc => .inl rfl) _ k2 k3
    (by
      intro x hxm y hy
      right
      rintro rfl
      obtain ⟨d, hd, he⟩ := k4 x hxm y hy
      rw [hord] at hd
      simp only [Option.isNone_none, if_true] at hd
      have hb := hb rfl
      obtain ⟨r, c, -, -, rfl⟩ := CellsOf.of_delivery (k2 x hxm) (k3 x hxm) y hy
      simp only [Int.toNat_natCast]
      unfold Apart
      rw [abs_lt_iff_not]
      simp only at he
      omega)
    (by
      intro r hr c hc hf
      refine k5 r hr c hc ?_
      cases q with
      | none =>
        have hf := hf rfl
        unfold Apart at hf
        rw [abs_lt_iff_not] at hf
        simp only [hord, Option.isNone_none, if_true, true_and]
        simp only [Option.getD_none] at hr
        omega
      | some q' =>
        left
        simp only [Option.getD_some] at hr
        simp only [hord, Option.isNone_some, Bool.false_eq_true, if_false, Option.getD_some]
        omega)
  rw [i1] at n1
  cases n1
  obtain ⟨st', d1, d2⟩ := diagsDone_ok H (MP.ops gops) rfl s (q.getD s) hm0 hm hql hOk ha hbuf (fun h => by rw [hself h]) hi st.order
    (List.Sublist.refl _) [p2] (List.Forall₂.cons (by
      rw [← diagDeliveries_events, MP.feed_eq]
      · exact n2
      · intro x hxm n
        have := k1 x hxm
        constructor <;> (rintro rfl; exact this)) List.Forall₂.nil)
  have hrun : st.calculateDiagonals (MP.ops gops) [0] (fun _ => false) (.float (.fin 1)) = .ok st' := by
    have htot : 0 ≤ st.total := by rw [ha.valid.total]; exact lens_nonneg _ _
    have hcalc : st.calculated = 0 := by rw [ha.valid.calculated, ha.next]; simp [lens]
    refine (C20_full_run (MP.ops gops) [0] st st' ha.valid ha.next ?_).mpr ?_
    · rw [ha.cons, ha.gens]; simp
    · obtain ⟨e1, e2⟩ := d1
      rw [DiagRounds, RoundsRel_iff _ _ _ _ _ _ ?_ _ _ ha.valid.covers (by rw [ha.gens]; simp)] at e1
      · obtain ⟨R, r1, r2⟩ := e1
        refine ⟨R, r1, ?_, ?_⟩
        · convert r2 using 1
          funext ids
          congr 1
          funext d
          unfold diagEvs
          cases st.base.selfJoin <;> rfl
        · rw [e2, hcalc, ha.next, ha.valid.total]
          simp
      · rw [ha.valid.order.nodup_iff]
        unfold Anytime.diagonals
        split <;> exact pyRange_nodup _ _
  refine ⟨p2, ?_, ⟨n3, n4⟩, n5⟩
  unfold matrixProfile
  rw [show Anytime.assemble (MP.ops gops) prepare shuffle [MP.new] m (s.map .fin) (q.map (·.map .fin)) buffer = .ok st from h1]
  simp only [bind, Except.bind, Bool.false_eq_true, if_false, hrun, d2]
  rfl

theorem profile_columns {gops : GenOps G K} {m : Nat} {N : Nat} {M : Option Nat} {δ : List K → List K → K} {Ok : GSt K → GOp K → Prop}
    {Inv : G → GSt K → Prop} (H : Serves gops m N M (fun a b => .fin (δ a b)) Ok Inv)
    (prepare : Int → List (Fl K) → Option (List (Fl K)) → Except PyErr G)
    (shuffle : List Int → List Int) (hsh : ∀ l, (shuffle l).Perm l) (hm0 : 0 < m) (s : List K) (q : Option (List K)) (hm : m ≤ s.length)
    (hq : ∀ q', q = some q' → m ≤ q'.length) (buffer : Option Int)
    (hb : q = none → -1 ≤ buffer.getD (m / 2) ∧ buffer.getD (m / 2) < ((s.length + 1 - m : Nat) : Int)) (g : G)
    (hg : prepare m (s.map .fin) (q.map (·.map .fin)) = .ok g) (hi : Inv g ⟨s, q.getD s, none⟩)
    (hOk : ∀ (l : Option (Int × Bool)) (c : Nat), c + m ≤ s.length → (GSt.mk s (q.getD s) l).Safe (.column c) → Ok ⟨s, q.getD s, l⟩ (.column c)) :
    ∃ p, matrixProfile gops prepare shuffle true m (s.map .fin) (q.map (·.map .fin)) buffer = .ok p ∧
      IsProfile (fun r c => δ (win m s c) (win m (q.getD s) r)) ((q.getD s).length + 1 - m) (s.length + 1 - m)
        (fun r c => q = none → Apart (buffer.getD (m / 2)) r c) p := by
  have hql : m ≤ (q.getD s).length := by
    cases q with
    | none => exact hm
    | some q' => exact hq q' rfl
  obtain ⟨p0, i1, -⟩ := MP.initialise_rep (K := K) ((q.getD s).length + 1 - m) (s.length + 1 - m)
  obtain ⟨st, h1, ha⟩ := assemble_ok (MP.ops gops) prepare shuffle hsh [MP.new] [p0] m hm0 s q buffer hm hq g hg hb (by simp)
    (List.Forall₂.cons i1 List.Forall₂.nil)
  have hbuf : -1 ≤ (if q.isNone then buffer.getD ((m : Int) / 2) else -1) := by
    cases q with
    | none => simpa using (hb rfl).1
    | some q' => simp
  set b : Int := if q.isNone then buffer.getD ((m : Int) / 2) else -1 with hbdef
  have hfar : ∀ r c : Nat, (q = none → Apart (buffer.getD (m / 2)) r c) ↔ ¬ ((r : Int) - c ≤ b ∧ (c : Int) - r ≤ b) := by
    intro r c
    cases q with
    | none =>
      simp only [forall_const, hbdef, Option.isNone_none, if_true]
      unfold Apart
      rw [abs_lt_iff_not]
      constructor <;> (intro h; omega)
    | some q' => simp [hbdef]; omega
  set B : Nat → Nat → Fl K := fun r c => if (r : Int) - c ≤ b ∧ (c : Int) - r ≤ b then .pinf else .fin (δ (win m s c) (win m (q.getD s) r)) with hB
  obtain ⟨o1, o2, o3⟩ := columnsOf_ok B ((q.getD s).length + 1 - m) (s.length + 1 - m) (by omega) (List.range (s.length + 1 - m)) (List.Perm.refl _)
  obtain ⟨p1, p2, n1, n2, n3, n4, n5⟩ := MP.nearest (fun r c => δ (win m s c) (win m (q.getD s) r)) ((q.getD s).length + 1 - m) (s.length + 1 - m)
    B (fun r c => q = none → Apart (buffer.getD (m / 2)) r c)
    (by
      intro r hr c hc
      simp only [hB, hfar]
      by_cases h : (r : Int) - c ≤ b ∧ (c : Int) - r ≤ b
      · right; simp [h]
      · left; rw [if_neg h]) _ o1 o2
    (by
      intro x hxm y hy
      obtain ⟨r, c, hr, hc, rfl⟩ := CellsOf.of_delivery (o1 x hxm) (o2 x hxm) y hy
      simp only [Int.toNat_natCast, hfar, hB]
      by_cases h : (r : Int) - c ≤ b ∧ (c : Int) - r ≤ b
      · left; rw [if_pos h]
      · right; exact h)
    (by
      intro r hr c hc _
      obtain ⟨x, hx, e1, e2⟩ := o3 r hr c hc
      obtain ⟨d, hd, hx⟩ := ((mem_run_cells _ o1 o2).2 x).mp hx
      exact ⟨d, hd, x, hx, e1, e2⟩)
  rw [i1] at n1
  cases n1
  obtain ⟨g', l', g1, -, -⟩ := H.gives_columns s (q.getD s) hOk (List.range (s.length + 1 - m)) (by intro c hc; rw [List.mem_range] at hc; omega)
    g none hi (by intro c _ t e h; cases h)
  have hxs : (List.range (s.length + 1 - m)).map (fun c : Nat => (c : Int)) = pyRange 0 ((s.length + 1 - m : Nat) : Int) := by
    unfold pyRange
    simp
  rw [hxs] at g1
  let st' : Anytime G (MP K) K := { st with base := { st.base with gens := [(g', 0)], cons := [(p2, [0])], lastCol := ((s.length + 1 - m : Nat) : Int) - 1 } }
  have hcols : st.base.calculateColumns (MP.ops gops) st.base.numSeries st.base.numQuery [0] (fun _ => false) none (.float (.fin 1)) = .ok st'.base := by
    refine (C23_columns (MP.ops gops) st.base.numSeries st.base.numQuery (by rw [ha.rows]; omega) (by rw [ha.cols]; omega) st.base st'.base [0]
      ha.valid.needed (by rw [ha.cons, ha.gens]; simp) (by rw [ha.buf]; exact hbuf) none (.float (.fin 1)) 0 ((s.length + 1 - m : Nat) : Int)
      (by rw [ha.last, ha.cols]; simp [ratioToInt]) (by rw [ha.cols]; exact (C19_one _ _ (by omega) le_rfl).1)).mpr
      ⟨fun _ c => colRow (fun a b => .fin (δ a b)) m s (q.getD s) c.toNat, ?_, ?_, ?_⟩
    · simp only [ha.gens, ha.rows, Int.toNat_natCast]
      exact allAsked_one _ _ _ _ _ _ _ g1
    · rw [ha.cons]
      refine allFed_one _ _ [p0] [p2] (List.Forall₂.cons ?_ List.Forall₂.nil)
      rw [← n2, ← MP.feed_eq gops _ (by
        intro x hxm n
        obtain ⟨c, -, rfl⟩ := List.mem_map.mp hxm
        constructor <;> (intro h; cases h))]
      congr 1
      rw [← hxs, columnsOf, List.map_map, List.map_map]
      apply List.map_congr_left
      intro c hc
      simp only [Function.comp_apply, Delivery.event, List.map_cons, List.map_nil, Int.toNat_natCast]
      congr 2
      unfold maskRow colRow
      rw [ha.buf, List.mapIdx_eq_zipIdx_map]
      apply List.ext_getElem?
      intro r
      rw [List.getElem?_map, List.getElem?_zipIdx, List.getElem?_map, List.getElem?_map]
      by_cases hr : r < (q.getD s).length + 1 - m
      · rw [List.getElem?_range hr]
        simp [hB]
      · rw [List.getElem?_eq_none (by simpa using hr)]
        rfl
    · simp only [st', ha.last]
      congr 1
      rw [if_pos (by omega)]
      omega
  refine ⟨p2, ?_, ⟨n3, n4⟩, n5⟩
  unfold matrixProfile
  rw [show Anytime.assemble (MP.ops gops) prepare shuffle [MP.new] m (s.map .fin) (q.map (·.map .fin)) buffer = .ok st from h1]
  unfold Anytime.calculateColumns
  simp only [bind, Except.bind, if_true, hcols]
  rfl

end

/-- **C60, z-normalised Euclidean distance**: for all series, queries (or a self-join), subsequence lengths, trivial match buffers and
shuffles, both by columns and by diagonals: the left / right / overall profiles and their indices are the brute-force nearest neighbours
outside the trivial match band. A buffer outside `-1 ≤ buffer < number of subsequences` is rejected by the constructor (`C24`). -/
theorem C60_znorm (mem : ZN.Mem) (hmem : mem.Ok) (noise : ℝ) (shuffle : List Int → List Int) (hsh : ∀ l, (shuffle l).Perm l) (byColumns : Bool)
    (m : Nat) (hm0 : 0 < m) (s : List ℝ) (q : Option (List ℝ)) (hm : m ≤ s.length) (hq : ∀ q', q = some q' → m ≤ q'.length)
    (buffer : Option Int) (hb : q = none → -1 ≤ buffer.getD (m / 2) ∧ buffer.getD (m / 2) < ((s.length + 1 - m : Nat) : Int)) :
    ∃ p, matrixProfile (ZN.genOps mem) (ZN.prepare mem noise) shuffle byColumns m (s.map .fin) (q.map (·.map .fin)) buffer = .ok p ∧
      IsProfile (fun r c => zdist m noise (seqOf s) (seqOf (q.getD s)) r c) ((q.getD s).length + 1 - m) (s.length + 1 - m)
        (fun r c => q = none → Apart (buffer.getD (m / 2)) r c) p := by
  obtain ⟨z, h1, h2, h3⟩ := ZN.prepare_ok mem hmem noise m hm0 s q hm hq
  have H := ZN.serves mem hmem noise m s.length (q.map (·.length))
  have hql : m ≤ (q.getD s).length := by
    cases q with
    | none => exact hm
    | some q' => exact hq q' rfl
  have e : (fun r c => zdist m noise (seqOf s) (seqOf (q.getD s)) r c) =
      fun r c => zdist m noise (seqOf (win m s c)) (seqOf (win m (q.getD s) r)) 0 0 := by funext r c; rw [zdist_win]
  rw [e]
  cases byColumns with
  | true =>
    exact profile_columns H (ZN.prepare mem noise) shuffle hsh hm0 s q hm hq buffer hb z h1 ⟨h2, h3⟩ (fun l c hc hsafe => ⟨⟨hc, hql⟩, hsafe⟩)
  | false =>
    exact profile_diagonals H (fun a b => zdist_symm _ _ _ _ _ _) (ZN.prepare mem noise) shuffle hsh hm0 s q hm hq buffer hb z h1 ⟨h2, h3⟩
      (fun d hd => ⟨hd, trivial⟩)

section
variable [Field K] [LinearOrder K] [IsStrictOrderedRing K]

omit [LinearOrder K] [IsStrictOrderedRing K] in
theorem sqd_symm (m : Nat) (s q : Nat → K) (i j : Nat) : sqd m s q i j = sqd m q s j i := by
  unfold sqd
  exact Finset.sum_congr rfl fun _ _ => by ring

theorem Eucl.fresh_cache {g : ColCache K} {m N : Nat} {s q : List K} (h1 : g.firstRow = none) (h2 : g.prevIdx = none) :
    g.Cache (fun a b => (a - b) ^ 2) clamp Eq m N s q none := ⟨fun fr hfr => (by rw [h1] at hfr; cases hfr), h2⟩

/-- **C60, Euclidean distance, by diagonals.** -/
theorem C60_euclidean_diagonals (mem : Nat → List (Fl K)) (hmem : ∀ n, (mem n).length = n) (sq : K → K) (shuffle : List Int → List Int)
    (hsh : ∀ l, (shuffle l).Perm l) (m : Nat) (hm0 : 0 < m) (s : List K) (q : Option (List K)) (hm : m ≤ s.length)
    (hq : ∀ q', q = some q' → m ≤ q'.length) (buffer : Option Int)
    (hb : q = none → -1 ≤ buffer.getD (m / 2) ∧ buffer.getD (m / 2) < ((s.length + 1 - m : Nat) : Int)) :
    ∃ p, matrixProfile (Eucl.genOps mem sq) (Eucl.prepare mem) shuffle false m (s.map .fin) (q.map (·.map .fin)) buffer = .ok p ∧
      IsProfile (fun r c => sq (sqd m (seqOf s) (seqOf (q.getD s)) r c)) ((q.getD s).length + 1 - m) (s.length + 1 - m)
        (fun r c => q = none → Apart (buffer.getD (m / 2)) r c) p := by
  obtain ⟨g, h1, h2, h3, h4⟩ := Eucl.prepare_ok mem hmem m hm0 s q hm (by rintro rfl; have := hq [] rfl; simp at this; omega)
  have H := Eucl.serves mem hmem sq m s.length (q.map (·.length))
  have e : (fun r c => sq (sqd m (seqOf s) (seqOf (q.getD s)) r c)) =
      fun r c => sq (sqd m (seqOf (win m s c)) (seqOf (win m (q.getD s) r)) 0 0) := by funext r c; rw [sqd_win]
  rw [e]
  exact profile_diagonals H (fun a b => by rw [sqd_symm]) (Eucl.prepare mem) shuffle hsh hm0 s q hm hq buffer hb g h1
    ⟨h2, Eucl.fresh_cache h3 h4⟩ (fun d hd => ⟨hd, trivial, fun c h => by cases h⟩)

/-- **C60, Euclidean distance, by columns.** Partial: `NoTiny` excludes different subsequences at squared distance below `1e-15`, for
which `calc_column` gives NaN and the profile with it (`C60_euclidean_columns_nan`). -/
theorem C60_euclidean_columns_partial (mem : Nat → List (Fl K)) (hmem : ∀ n, (mem n).length = n) (sq : K → K) (shuffle : List Int → List Int)
    (hsh : ∀ l, (shuffle l).Perm l) (m : Nat) (hm0 : 0 < m) (s : List K) (q : Option (List K)) (hm : m ≤ s.length)
    (hq : ∀ q', q = some q' → m ≤ q'.length) (htiny : Eucl.NoTiny m s (q.getD s)) (buffer : Option Int)
    (hb : q = none → -1 ≤ buffer.getD (m / 2) ∧ buffer.getD (m / 2) < ((s.length + 1 - m : Nat) : Int)) :
    ∃ p, matrixProfile (Eucl.genOps mem sq) (Eucl.prepare mem) shuffle true m (s.map .fin) (q.map (·.map .fin)) buffer = .ok p ∧
      IsProfile (fun r c => sq (sqd m (seqOf s) (seqOf (q.getD s)) r c)) ((q.getD s).length + 1 - m) (s.length + 1 - m)
        (fun r c => q = none → Apart (buffer.getD (m / 2)) r c) p := by
  obtain ⟨g, h1, h2, h3, h4⟩ := Eucl.prepare_ok mem hmem m hm0 s q hm (by rintro rfl; have := hq [] rfl; simp at this; omega)
  have H := Eucl.serves mem hmem sq m s.length (q.map (·.length))
  have hql : m ≤ (q.getD s).length := by
    cases q with
    | none => exact hm
    | some q' => exact hq q' rfl
  have e : (fun r c => sq (sqd m (seqOf s) (seqOf (q.getD s)) r c)) =
      fun r c => sq (sqd m (seqOf (win m s c)) (seqOf (win m (q.getD s) r)) 0 0) := by funext r c; rw [sqd_win]
  rw [e]
  exact profile_columns H (Eucl.prepare mem) shuffle hsh hm0 s q hm hq buffer hb g h1
    ⟨h2, Eucl.fresh_cache h3 h4⟩ (fun l c hc hsafe => ⟨⟨hc, hql⟩, hsafe, fun _ _ => htiny⟩)

end

/-- The rounding of tiny distances poisons a complete profile: series `[1/50000000, 5]`, query `[0, 5]`, `m = 1`. The nearest neighbour
of the second point is 5, at distance 0; the left profile has NaN there and the overall profile `+inf`. (Squared distances: `sq = id`.) -/
theorem C60_euclidean_columns_nan :
    (matrixProfile (Eucl.genOps zeroMem id) (Eucl.prepare zeroMem) id true 1 [.fin (1 / 50000000 : ℚ), .fin 5] (some [.fin 0, .fin 5]) none).map
        (fun p => (p.left, MP.merged p.left p.right)) = .ok ([.fin 0, .nan], [.fin 0, .pinf]) ∧
      ¬ ∃ i, IsNearest (fun r => id (sqd 1 (seqOf [(1 / 50000000 : ℚ), 5]) (seqOf [0, 5]) r 1)) 2 (fun _ => True) .pinf i := by
  refine ⟨by decide +kernel, ?_⟩
  rintro ⟨i, ⟨-, h⟩ | ⟨r, -, -, h, -⟩⟩
  · exact h 0 (by norm_num) trivial
  · cases h

section Examples

/-- A self-join by columns and by diagonals (reverse order) with the default buffer `m // 2 = 1`: the profile. -/
example : (matrixProfile (Eucl.genOps zeroMem id) (Eucl.prepare zeroMem) List.reverse true 2
      ([3, 1, 4, 1, 5, 9].map Fl.fin : List (Fl ℚ)) none none).map (fun p => (MP.merged p.left p.right, MP.mergedIdx p.left p.right p.leftIdx p.rightIdx)) =
      (matrixProfile (Eucl.genOps zeroMem id) (Eucl.prepare zeroMem) List.reverse false 2
      ([3, 1, 4, 1, 5, 9].map Fl.fin : List (Fl ℚ)) none none).map (fun p => (MP.merged p.left p.right, MP.mergedIdx p.left p.right p.leftIdx p.rightIdx)) ∧
    (matrixProfile (Eucl.genOps zeroMem id) (Eucl.prepare zeroMem) List.reverse true 2
      ([3, 1, 4, 1, 5, 9].map Fl.fin : List (Fl ℚ)) none none).map (fun p => (MP.merged p.left p.right, MP.mergedIdx p.left p.right p.leftIdx p.rightIdx)) =
      .ok ([.fin 1, .fin 1, .fin 1, .fin 1, .fin 41], [2, 3, 0, 1, 1]) := by decide +kernel

example : Eucl.NoTiny 2 ([3, 1, 4, 1, 5, 9] : List ℚ) [3, 1, 4, 1, 5, 9] := by
  intro i j hi hj
  simp only [List.length_cons, List.length_nil] at hi hj
  have hi : i < 5 := by omega
  have hj : j < 5 := by omega
  unfold Eucl.eps sqd
  interval_cases i <;> interval_cases j <;> simp [Finset.sum_range_succ, seqOf] <;> norm_num

/-- The hypotheses of `C60_znorm` for a self-join and for a join, by both modes. -/
example (byColumns : Bool) : ∃ p, matrixProfile (ZN.genOps ZN.zeroMem) (ZN.prepare ZN.zeroMem 0) List.reverse byColumns (3 : Nat)
    (([1, 2, 4, 3, 3, 3, 1, 2, 4] : List ℝ).map .fin) none none = .ok p ∧
    ∃ i, (MP.merged p.left p.right)[0]? = some (.fin 0) ∧ (MP.mergedIdx p.left p.right p.leftIdx p.rightIdx)[0]? = some i := by
  obtain ⟨p, h1, h2⟩ := C60_znorm ZN.zeroMem ZN.zeroMem_ok 0 List.reverse List.reverse_perm byColumns 3 (by norm_num)
    [1, 2, 4, 3, 3, 3, 1, 2, 4] none (by simp) (by simp) none (by simp)
  obtain ⟨l, r, v, li, ri, i, -, -, e, -, -, e', -, -, hv⟩ := h2.entries 0 (by simp)
  refine ⟨p, h1, i, ?_, e'⟩
  have h0 : zdist 3 0 (seqOf [1, 2, 4, 3, 3, 3, 1, 2, 4]) (seqOf [1, 2, 4, 3, 3, 3, 1, 2, 4]) 6 0 = 0 := by
    rw [← zdist_win]
    exact zdist_self _ _ _ _
  have hfar : Apart ((none : Option Int).getD (((3 : Nat) : Int) / 2)) 6 0 := by unfold Apart; simp
  rcases hv with ⟨-, hno⟩ | ⟨r, hr, -, rfl, -, hmin⟩
  · exact absurd (fun _ => hfar) (hno 6 (by simp))
  · have := hmin 6 (by simp) (fun _ => hfar)
    simp only [Option.getD_none] at this e
    rw [h0] at this
    rw [e, le_antisymm this (zdist_nonneg _ _ _ _ _ _)]

example : ∃ p, matrixProfile (ZN.genOps ZN.zeroMem) (ZN.prepare ZN.zeroMem 0) id false (2 : Nat)
    (([1, 2, 4, 3] : List ℝ).map .fin) (some (([0, 1, 0] : List ℝ).map .fin)) (some 7) = .ok p := by
  obtain ⟨p, h1, -⟩ := C60_znorm ZN.zeroMem ZN.zeroMem_ok 0 id (fun l => List.Perm.refl l) false 2 (by norm_num)
    [1, 2, 4, 3] (some [0, 1, 0]) (by simp) (by simp) (some 7) (by simp)
  exact ⟨p, h1⟩

end Examples

/-- `C60_euclidean_diagonals`: a self-join and a join. -/
example := C60_euclidean_diagonals (K := ℚ) zeroMem (fun n => by simp [zeroMem]) id List.reverse List.reverse_perm 2 (by norm_num) [3, 1, 4, 1, 5, 9] none (by simp) (by simp) none (by simp)

example := C60_euclidean_diagonals (K := ℚ) zeroMem (fun n => by simp [zeroMem]) id List.reverse List.reverse_perm 2 (by norm_num) [3, 1, 4, 1, 5, 9] (some [2, 6, 5]) (by simp) (by simp)
  none (by simp)

/-- `C60_euclidean_columns_partial`. -/
example := C60_euclidean_columns_partial (K := ℚ) zeroMem (fun n => by simp [zeroMem]) id List.reverse List.reverse_perm 2 (by norm_num) [3, 1, 4, 1, 5, 9] none (by simp) (by simp) (by
    intro i j hi hj
    simp only [List.length_cons, List.length_nil, Option.getD_none] at hi hj
    have hi : i < 5 := by omega
    have hj : j < 5 := by omega
    unfold Eucl.eps sqd
    interval_cases i <;> interval_cases j <;> simp [Finset.sum_range_succ, seqOf] <;> norm_num) none (by simp)

end Verif
