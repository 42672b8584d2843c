import Verif.Props.BatchFeed
import Verif.Props.EndToEnd

/-!
The cells that a batch calculation delivers to a consumer of one generator.
-/

namespace Verif
open Spec
variable {α G K : Type}

/-- The deliveries of one calculation. -/
def batchDeliveries (m : Nat) (selfJoin : Bool) (b : Int) (order : List Int) (D : List α → List α → Fl K) (s q : List α) (u : BSt) : BOp → List (Delivery K)
  | .diagonals n => ((order.take n).drop u.next).flatMap fun d =>
      .diag d (diagValues D m s q d) :: if selfJoin then [.diag (-d) (diagValues D m s q d)] else []
  | .columns a c => (List.range (c - a)).map fun i => .column (a + i) ((List.range (q.length + 1 - m)).map fun r => pairValue D m b s q r (a + i))

/-- The deliveries of a sequence of calculations. -/
def allDeliveries (m : Nat) (selfJoin : Bool) (b : Int) (order : List Int) (D : List α → List α → Fl K) (s q : List α) : BSt → List BOp → List (Delivery K)
  | _, [] => []
  | u, op :: ops => batchDeliveries m selfJoin b order D s q u op ++ allDeliveries m selfJoin b order D s q (u.step op) ops

theorem batchDeliveries_events (m : Nat) (selfJoin : Bool) (b : Int) (order : List Int) (D : Nat → List α → List α → Fl K) (s q : List α) (id : Nat) (u : BSt)
    (op : BOp) : (batchDeliveries m selfJoin b order (D id) s q u op).map Delivery.event = u.events m selfJoin b order D s q [id] op := by
  cases op with
  | diagonals n =>
    simp only [batchDeliveries, BSt.events, List.map_flatMap]
    congr 1
    funext d
    cases selfJoin <;> rfl
  | columns a c =>
    simp only [batchDeliveries, BSt.events, List.map_map]
    rfl

theorem allDeliveries_events (m : Nat) (selfJoin : Bool) (b : Int) (order : List Int) (D : Nat → List α → List α → Fl K) (s q : List α) (id : Nat) (ops : List BOp) :
    ∀ u, (allDeliveries m selfJoin b order (D id) s q u ops).map Delivery.event = BSt.allEvents m selfJoin b order D s q [id] u ops := by
  induction ops with
  | nil => intro u; rfl
  | cons op ops ih => intro u; simp only [allDeliveries, BSt.allEvents, List.map_append, batchDeliveries_events, ih]

theorem no_shift (m : Nat) (selfJoin : Bool) (b : Int) (order : List Int) (D : List α → List α → Fl K) (s q : List α) (ops : List BOp) :
    ∀ u, ∀ d ∈ allDeliveries m selfJoin b order D s q u ops, ∀ n, d ≠ .shiftSeries n ∧ d ≠ .shiftQuery n := by
  induction ops with
  | nil => intro u d hd; cases hd
  | cons op ops ih =>
    intro u d hd n
    rcases List.mem_append.mp hd with hd | hd
    · cases op with
      | diagonals k =>
        obtain ⟨x, -, hx⟩ := List.mem_flatMap.mp hd
        cases selfJoin <;> simp at hx
        · rw [hx]; simp
        · rcases hx with rfl | rfl <;> simp
      | columns a c =>
        obtain ⟨x, -, rfl⟩ := List.mem_map.mp hd
        simp
    · exact ih _ d hd n

/-- The deliveries are parts of the matrix `B`; apart from `+inf`s they consist of the cells `far`, each of which is delivered. -/
structure CellsAre (B : Nat → Nat → Fl K) (h w : Nat) (far : Nat → Nat → Prop) (ds : List (Delivery K)) : Prop where
  valid : ∀ d ∈ ds, d.Valid h w
  of : ∀ d ∈ ds, d.Of B h
  sound : ∀ d ∈ ds, ∀ x ∈ d.cells 0 0, x.val = .pinf ∨ far x.row.toNat x.col.toNat
  complete : ∀ r < h, ∀ c < w, far r c → ∃ d ∈ ds, ∃ x ∈ d.cells 0 0, x.row = (r : Int) ∧ x.col = (c : Int)

theorem CellsAre.append {B : Nat → Nat → Fl K} {h w : Nat} {f1 f2 : Nat → Nat → Prop} {d1 d2 : List (Delivery K)} (h1 : CellsAre B h w f1 d1)
    (h2 : CellsAre B h w f2 d2) : CellsAre B h w (fun r c => f1 r c ∨ f2 r c) (d1 ++ d2) := by
  refine ⟨?_, ?_, ?_, ?_⟩
  · intro d hd; rcases List.mem_append.mp hd with hd | hd
    · exact h1.valid d hd
    · exact h2.valid d hd
  · intro d hd; rcases List.mem_append.mp hd with hd | hd
    · exact h1.of d hd
    · exact h2.of d hd
  · intro d hd x hx; rcases List.mem_append.mp hd with hd | hd
    · rcases h1.sound d hd x hx with h | h
      · exact .inl h
      · exact .inr (.inl h)
    · rcases h2.sound d hd x hx with h | h
      · exact .inl h
      · exact .inr (.inr h)
  · rintro r hr c hc (hf | hf)
    · obtain ⟨d, hd, hx⟩ := h1.complete r hr c hc hf
      exact ⟨d, List.mem_append_left _ hd, hx⟩
    · obtain ⟨d, hd, hx⟩ := h2.complete r hr c hc hf
      exact ⟨d, List.mem_append_right _ hd, hx⟩

/-- What is known about the order of the diagonals. -/
def OrderOk (m : Nat) (selfJoin : Bool) (b : Int) (order : List Int) (ns nq : Nat) : Prop :=
  ∀ d ∈ order, d + m ≤ ns ∧ -d + m ≤ nq ∧ (selfJoin = true → b < d)

theorem pairValue_far {D : List α → List α → Fl K} {m : Nat} {b : Int} {s q : List α} {r c : Nat} (h : ¬ ((r : Int) - c ≤ b ∧ (c : Int) - r ≤ b)) :
    pairValue D m b s q r c = D ((s.drop c).take m) ((q.drop r).take m) := by
  unfold pairValue; rw [if_neg h]

theorem diagValues_length (D : List α → List α → Fl K) (m : Nat) (s q : List α) (d : Int) : (diagValues D m s q d).length = diagEntries m q.length s.length d := by
  simp [diagValues]

theorem cells_diag (d : Int) (v : List (Fl K)) (x : Cell K) (hx : x ∈ (Delivery.diag d v).cells 0 0) :
    ∃ k, v[k]? = some x.val ∧ x.row = (((-d).toNat + k : Nat) : Int) ∧ x.col = ((d.toNat + k : Nat) : Int) := by
  obtain ⟨z, hz, rfl⟩ := List.mem_map.mp hx
  rw [List.mem_zipIdx_iff_getElem?] at hz
  exact ⟨z.2, hz, by simp, by simp⟩

theorem mem_cells_diag (d : Int) (v : List (Fl K)) (k : Nat) (hk : k < v.length) (r c : Nat) (h1 : r = (-d).toNat + k) (h2 : c = d.toNat + k) :
    ∃ x ∈ (Delivery.diag d v).cells 0 0, x.row = (r : Int) ∧ x.col = (c : Int) := by
  refine ⟨⟨(r : Int), (c : Int), v[k]⟩, ?_, rfl, rfl⟩
  refine List.mem_map.mpr ⟨(v[k], k), ?_, ?_⟩
  · rw [List.mem_zipIdx_iff_getElem?]; exact List.getElem?_eq_getElem hk
  · simp only [Cell.mk.injEq, and_true]
    omega

theorem batchDeliveries_cells (m : Nat) (selfJoin : Bool) (b : Int) (hb : -1 ≤ b) (order : List Int) (D : List α → List α → Fl K) (s q : List α)
    (hs : m ≤ s.length) (hq : m ≤ q.length)
    (ho : OrderOk m selfJoin b order s.length q.length) (hself : selfJoin = true → q = s) (hnot : selfJoin = false → b = -1)
    (hsym : selfJoin = true → ∀ x y, D x y = D y x) (u : BSt) (op : BOp) (hop : ∀ a c, op = .columns a c → c ≤ s.length + 1 - m) :
    CellsAre (pairValue D m b s q) (q.length + 1 - m) (s.length + 1 - m) (u.covers selfJoin b order op) (batchDeliveries m selfJoin b order D s q u op) := by
  have hlen := diagValues_length D m s q
  cases op with
  | columns a e =>
    have he := hop a e rfl
    have hmem : ∀ d, d ∈ batchDeliveries m selfJoin b order D s q u (.columns a e) ↔ ∃ c, a ≤ c ∧ c < e ∧
        d = .column c ((List.range (q.length + 1 - m)).map fun r => pairValue D m b s q r c) := by
      intro d
      simp only [batchDeliveries, List.mem_map, List.mem_range]
      constructor
      · rintro ⟨i, hi, rfl⟩; exact ⟨a + i, by omega, by omega, rfl⟩
      · rintro ⟨c, h1, h2, rfl⟩; exact ⟨c - a, by omega, by rw [show a + (c - a) = c by omega]⟩
    refine ⟨?_, ?_, ?_, ?_⟩
    · intro d hd
      obtain ⟨c, h1, h2, rfl⟩ := (hmem d).mp hd
      refine ⟨by omega, ?_, by simp⟩
      intro h0
      have := congrArg List.length h0
      simp at this
      omega
    · intro d hd
      obtain ⟨c, h1, h2, rfl⟩ := (hmem d).mp hd
      rfl
    · intro d hd x hx
      obtain ⟨c, h1, h2, rfl⟩ := (hmem d).mp hd
      obtain ⟨z, hz, rfl⟩ := List.mem_map.mp hx
      rw [List.mem_zipIdx_iff_getElem?] at hz
      have hzl := (List.getElem?_eq_some_iff.mp hz).1
      simp only [List.length_map, List.length_range] at hzl
      rw [List.getElem?_map, List.getElem?_range hzl] at hz
      have hz : pairValue D m b s q z.2 c = z.1 := by simpa using hz
      by_cases hf : (z.2 : Int) - c ≤ b ∧ (c : Int) - z.2 ≤ b
      · left
        simp only
        rw [← hz]; unfold pairValue; rw [if_pos hf]
      · right
        refine ⟨?_, ?_, ?_⟩
        · simpa using h1
        · simpa using h2
        · simpa using hf
    · rintro r hr c hc ⟨h1, h2, h3⟩
      refine ⟨_, (hmem _).mpr ⟨c, h1, h2, rfl⟩, ⟨(r : Int), (c : Int), pairValue D m b s q r c⟩, ?_, rfl, rfl⟩
      refine List.mem_map.mpr ⟨(pairValue D m b s q r c, r), ?_, rfl⟩
      rw [List.mem_zipIdx_iff_getElem?, List.getElem?_map, List.getElem?_range hr]
      rfl
  | diagonals n =>
    set xs := (order.take n).drop u.next with hxs
    have hsub : ∀ d ∈ xs, d + m ≤ s.length ∧ -d + m ≤ q.length ∧ (selfJoin = true → b < d) := fun d hd =>
      ho d (List.mem_of_mem_take (List.mem_of_mem_drop hd))
    have hmem : ∀ x, x ∈ batchDeliveries m selfJoin b order D s q u (.diagonals n) ↔ ∃ d ∈ xs, x = .diag d (diagValues D m s q d) ∨
        (selfJoin = true ∧ x = .diag (-d) (diagValues D m s q d)) := by
      intro x
      simp only [batchDeliveries, List.mem_flatMap, ← hxs]
      constructor
      · rintro ⟨d, hd, h⟩
        refine ⟨d, hd, ?_⟩
        cases selfJoin with
        | false => left; simpa using h
        | true => simpa using h
      · rintro ⟨d, hd, h⟩
        refine ⟨d, hd, ?_⟩
        cases selfJoin with
        | false => simpa using h
        | true => simpa using h
    refine ⟨?_, ?_, ?_, ?_⟩
    · intro x hx
      obtain ⟨d, hd, rfl | ⟨hj, rfl⟩⟩ := (hmem x).mp hx
      · have := hsub d hd
        simp only [Delivery.Valid, hlen, diagEntries]
        omega
      · have h1 := hsub d hd
        have h2 := hself hj
        have h3 := h1.2.2 hj
        subst h2
        simp only [Delivery.Valid, hlen, diagEntries]
        omega
    · intro x hx
      obtain ⟨d, hd, rfl | ⟨hj, rfl⟩⟩ := (hmem x).mp hx
      · intro k v hk
        have hkl := (List.getElem?_eq_some_iff.mp hk).1
        rw [hlen] at hkl
        rw [diagValues, List.getElem?_map, List.getElem?_range hkl] at hk
        rw [pairValue_far]
        · simpa using hk.symm
        · have := hsub d hd
          cases hsj : selfJoin with
          | true => have := this.2.2 hsj; omega
          | false => have := hnot hsj; omega
      · intro k v hk
        have h2 := hself hj
        subst h2
        have hkl := (List.getElem?_eq_some_iff.mp hk).1
        rw [hlen] at hkl
        rw [diagValues, List.getElem?_map, List.getElem?_range hkl] at hk
        have hk : D ((q.drop (d.toNat + k)).take m) ((q.drop ((-d).toNat + k)).take m) = v := by simpa using hk
        have h3 := (hsub d hd).2.2 hj
        rw [pairValue_far (by omega), neg_neg, ← hk]
        exact hsym hj _ _
    · intro x hx y hy
      right
      obtain ⟨d, hd, rfl | ⟨hj, rfl⟩⟩ := (hmem x).mp hx
      · obtain ⟨k, -, h1, h2⟩ := cells_diag _ _ _ hy
        left
        rw [h1, h2, Int.toNat_natCast, Int.toNat_natCast, ← hxs]
        have e : (((d.toNat + k : Nat) : Int) - (((-d).toNat + k : Nat) : Int)) = d := by omega
        rw [e]; exact hd
      · obtain ⟨k, -, h1, h2⟩ := cells_diag _ _ _ hy
        right
        rw [h1, h2, Int.toNat_natCast, Int.toNat_natCast, ← hxs]
        have e : (((- -d).toNat + k : Nat) : Int) - (((-d).toNat + k : Nat) : Int) = d := by omega
        rw [e]; exact ⟨hj, hd⟩
    · intro r hr c hc hf
      rcases hf with hd | ⟨hj, hd⟩
      · have := hsub _ hd
        obtain ⟨y, h1, h2⟩ := mem_cells_diag ((c : Int) - r) (diagValues D m s q ((c : Int) - r)) (min r c) (by rw [hlen, diagEntries]; omega) r c (by omega) (by omega)
        exact ⟨_, (hmem _).mpr ⟨_, hd, .inl rfl⟩, y, h1, h2⟩
      · have := hsub _ hd
        have h2 := hself hj
        subst h2
        obtain ⟨y, h1, h2⟩ := mem_cells_diag (-((r : Int) - c)) (diagValues D m q q ((r : Int) - c)) (min r c) (by rw [hlen, diagEntries]; omega) r c (by omega) (by omega)
        exact ⟨_, (hmem _).mpr ⟨_, hd, .inr ⟨hj, rfl⟩⟩, y, h1, h2⟩

theorem allDeliveries_cells (m : Nat) (selfJoin : Bool) (b : Int) (hb : -1 ≤ b) (order : List Int) (D : List α → List α → Fl K) (s q : List α)
    (hs : m ≤ s.length) (hq : m ≤ q.length)
    (ho : OrderOk m selfJoin b order s.length q.length) (hself : selfJoin = true → q = s) (hnot : selfJoin = false → b = -1)
    (hsym : selfJoin = true → ∀ x y, D x y = D y x) (ops : List BOp) :
    ∀ u : BSt, (∀ a c, .columns a c ∈ ops → c ≤ s.length + 1 - m) →
    CellsAre (pairValue D m b s q) (q.length + 1 - m) (s.length + 1 - m) (u.covered selfJoin b order ops) (allDeliveries m selfJoin b order D s q u ops) := by
  induction ops with
  | nil =>
    intro u _
    exact ⟨fun d hd => (by cases hd), fun d hd => (by cases hd), fun d hd => (by cases hd), fun _ _ _ _ h => h.elim⟩
  | cons op ops ih =>
    intro u h
    exact (batchDeliveries_cells m selfJoin b hb order D s q hs hq ho hself hnot hsym u op (fun a c e => h a c (by rw [e]; simp))).append
      (ih _ fun a c hm => h a c (by simp [hm]))

theorem covers_far {m : Nat} {selfJoin : Bool} {b : Int} (hb : -1 ≤ b) {order : List Int} {ns nq : Nat} (ho : OrderOk m selfJoin b order ns nq)
    (hnot : selfJoin = false → b = -1) {u : BSt} {op : BOp} {r c : Nat} (h : u.covers selfJoin b order op r c) :
    ¬ ((r : Int) - c ≤ b ∧ (c : Int) - r ≤ b) := by
  cases op with
  | columns a e => exact h.2.2
  | diagonals n =>
    have hsub : ∀ d ∈ (order.take n).drop u.next, selfJoin = true → b < d := fun d hd => (ho d (List.mem_of_mem_take (List.mem_of_mem_drop hd))).2.2
    cases hsj : selfJoin with
    | true =>
      rcases h with h | ⟨-, h⟩
      · have := hsub _ h hsj; omega
      · have := hsub _ h hsj; omega
    | false => have := hnot hsj; omega

theorem covered_far {m : Nat} {selfJoin : Bool} {b : Int} (hb : -1 ≤ b) {order : List Int} {ns nq : Nat} (ho : OrderOk m selfJoin b order ns nq)
    (hnot : selfJoin = false → b = -1) {ops : List BOp} {r c : Nat} : ∀ {u : BSt}, u.covered selfJoin b order ops r c →
    ¬ ((r : Int) - c ≤ b ∧ (c : Int) - r ≤ b) := by
  induction ops with
  | nil => intro u h; exact h.elim
  | cons op ops ih =>
    rintro u (h | h)
    · exact covers_far hb ho hnot h
    · exact ih h

theorem AreBatchCalls.columns_le {m nq ns : Nat} {order : List Int} {us : List BOp} : ∀ {u : BSt} {os : List Anytime.Op},
    AreBatchCalls m nq ns order u us os → ∀ a c, .columns a c ∈ us → c ≤ ns + 1 - m := by
  induction us with
  | nil => intro u os _ a c h; cases h
  | cons x us ih =>
    intro u os h a c hm
    cases os with
    | nil => exact h.elim
    | cons o os =>
      obtain ⟨h1, h2⟩ := h
      rcases List.mem_cons.mp hm with rfl | hm
      · cases o with
        | diagonals ints p => exact h1.elim
        | columns ints start upto =>
          obtain ⟨a0, b0, -, -, -, -, h⟩ := h1
          omega
      · exact ih h2 a c hm

theorem batchOrder_ok {shuffle : List Int → List Int} (hsh : ∀ l, (shuffle l).Perm l) {m : Nat} {s : List α} {query : Option (List α)} {buffer : Option Int}
    (hs : m ≤ s.length) (hb : query = none → -1 ≤ buffer.getD (m / 2)) (hq : m ≤ (query.getD s).length) :
    OrderOk m query.isNone (batchBuffer m query buffer) (batchOrder shuffle m s query buffer) s.length (query.getD s).length ∧
      (batchOrder shuffle m s query buffer).Nodup ∧
      ∀ d, d ∈ batchOrder shuffle m s query buffer ↔
        (if query.isNone then batchBuffer m query buffer < d ∧ d < ((s.length + 1 - m : Nat) : Int)
        else -(((query.getD s).length + 1 - m : Nat) : Int) < d ∧ d < ((s.length + 1 - m : Nat) : Int)) := by
  have hmem : ∀ d, d ∈ batchOrder shuffle m s query buffer ↔
        (if query.isNone then batchBuffer m query buffer < d ∧ d < ((s.length + 1 - m : Nat) : Int)
        else -(((query.getD s).length + 1 - m : Nat) : Int) < d ∧ d < ((s.length + 1 - m : Nat) : Int)) := by
    intro d
    unfold batchOrder
    rw [(hsh _).mem_iff]
    unfold batchDiagonals
    split <;> rw [mem_pyRange] <;> omega
  refine ⟨?_, ?_, hmem⟩
  · intro d hd
    rw [hmem] at hd
    cases query with
    | none =>
      have hb := hb rfl
      have e : batchBuffer m (none : Option (List α)) buffer = buffer.getD (m / 2) := rfl
      simp only [Option.isNone_none, if_true, e, Option.getD_none] at hd ⊢
      refine ⟨by omega, by omega, fun _ => by omega⟩
    | some q =>
      simp only [Option.isNone_some, Bool.false_eq_true, if_false, Option.getD_some] at hd hq ⊢
      refine ⟨by omega, by omega, fun h => by cases h⟩
  · unfold batchOrder
    rw [(hsh _).nodup_iff]
    unfold batchDiagonals
    split <;> exact pyRange_nodup _ _

/-- The distances are symmetric. -/
theorem GenKind.dist_symm (m : Nat) (k : GenKind) (a b : List ℝ) : k.dist m a b = k.dist m b a := by
  cases k with
  | euclidean _ => simp only [GenKind.dist]; rw [sqd_symm]
  | znorm noise _ => simp only [GenKind.dist]; rw [zdist_symm]

theorem streamDist_symm (π : Nat → α → ℝ) (m : Nat) (kinds : List (GenKind × Nat)) (id : Nat) (a b : List α) :
    streamDist π m kinds id a b = streamDist π m kinds id b a := by
  unfold streamDist
  cases kinds[id]? with
  | none => rfl
  | some k => exact k.1.dist_symm m _ _

end Verif
