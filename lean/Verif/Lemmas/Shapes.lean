import Verif.Lemmas.Cases
import Verif.Props.Multidimensional

/-!
What the consumers of several generators receive, and how it consists of what consumers of single generators receive.
-/

namespace Verif
open Spec
variable {α K : Type}

/-- A call with the distances `f id k` of all generators. -/
inductive Shape (K : Type)
  | diag (d : Int) (n : Nat) (f : Nat → Nat → Fl K)
  | column (c n : Nat) (f : Nat → Nat → Fl K)
  | shiftSeries (n : Nat)
  | shiftQuery (n : Nat)

namespace Shape

/-- As received by a consumer of the generators `ids`. -/
def event (ids : List Nat) : Shape K → CEvent K
  | .diag d n f => .diagonal d (ids.map fun id => (List.range n).map (f id))
  | .column c n f => .column c (ids.map fun id => (List.range n).map (f id))
  | .shiftSeries n => .shiftSeries n
  | .shiftQuery n => .shiftQuery n

/-- For one generator. -/
def delivery (id : Nat) : Shape K → Delivery K
  | .diag d n f => .diag d ((List.range n).map (f id))
  | .column c n f => .column c ((List.range n).map (f id))
  | .shiftSeries n => .shiftSeries n
  | .shiftQuery n => .shiftQuery n

/-- For several channels. -/
def multi (ids : List Nat) : Shape K → MDelivery K
  | .diag d n f => .diag d ((List.range n).map fun k => ids.map fun id => f id k)
  | .column c n f => .column c ((List.range n).map fun k => ids.map fun id => f id k)
  | .shiftSeries n => .shiftSeries n
  | .shiftQuery n => .shiftQuery n

/-- Row, column and the distances of all generators. -/
def cells (ss qs : Nat) : Shape K → Set (Int × Int × (Nat → Fl K))
  | .diag d n f => {x | ∃ k < n, x = ((((-d).toNat + k + qs : Nat) : Int), ((d.toNat + k + ss : Nat) : Int), fun id => f id k)}
  | .column c n f => {x | ∃ k < n, x = (((k + qs : Nat) : Int), ((c + ss : Nat) : Int), fun id => f id k)}
  | _ => ∅

theorem multi_cells (ids : List Nat) (ss qs : Nat) (x : Shape K) (y : MCell K) :
    y ∈ (x.multi ids).cells ss qs ↔ ∃ z ∈ x.cells ss qs, y = ⟨z.1, z.2.1, ids.map z.2.2⟩ := by
  cases x with
  | diag d n f =>
    constructor
    · rintro ⟨k, h1, h2, h3⟩
      rw [List.getElem?_map] at h1
      obtain ⟨j, h4, h5⟩ := Option.map_eq_some_iff.mp h1
      obtain ⟨hk, rfl⟩ := List.getElem?_eq_some_iff.mp h4
      rw [List.getElem_range] at h5
      refine ⟨_, ⟨k, by simpa using hk, rfl⟩, ?_⟩
      obtain ⟨r, c, v⟩ := y
      simp only at h2 h3 h5
      rw [← h5, h2, h3]
    · rintro ⟨z, ⟨k, hk, rfl⟩, rfl⟩
      exact ⟨k, by rw [List.getElem?_map, List.getElem?_range hk]; rfl, rfl, rfl⟩
  | column c n f =>
    constructor
    · rintro ⟨k, h1, h2, h3⟩
      rw [List.getElem?_map] at h1
      obtain ⟨j, h4, h5⟩ := Option.map_eq_some_iff.mp h1
      obtain ⟨hk, rfl⟩ := List.getElem?_eq_some_iff.mp h4
      rw [List.getElem_range] at h5
      refine ⟨_, ⟨k, by simpa using hk, rfl⟩, ?_⟩
      obtain ⟨r, c, v⟩ := y
      simp only at h2 h3 h5
      rw [← h5, h2, h3]
    · rintro ⟨z, ⟨k, hk, rfl⟩, rfl⟩
      exact ⟨k, by rw [List.getElem?_map, List.getElem?_range hk]; rfl, rfl, rfl⟩
  | shiftSeries n => simp [multi, MDelivery.cells, cells]
  | shiftQuery n => simp [multi, MDelivery.cells, cells]

theorem delivery_cells (id : Nat) (ss qs : Nat) (x : Shape K) (y : Cell K) :
    y ∈ (x.delivery id).cells ss qs ↔ ∃ z ∈ x.cells ss qs, y = ⟨z.1, z.2.1, z.2.2 id⟩ := by
  have key : ∀ (n : Nat) (g : Nat → Fl K) (p : Nat → Int × Int), y ∈ ((List.range n).map g).zipIdx.map (fun x => (⟨(p x.2).1, (p x.2).2, x.1⟩ : Cell K)) ↔
      ∃ k < n, y = ⟨(p k).1, (p k).2, g k⟩ := by
    intro n g p
    rw [List.mem_map]
    constructor
    · rintro ⟨⟨v, k⟩, h1, rfl⟩
      obtain ⟨h2, h3⟩ := List.mem_zipIdx' h1
      refine ⟨k, by simpa using h2, ?_⟩
      simp only [h3, List.getElem_map, List.getElem_range]
    · rintro ⟨k, hk, rfl⟩
      refine ⟨(g k, k), ?_, rfl⟩
      rw [List.mem_zipIdx_iff_getElem?, List.getElem?_map, List.getElem?_range hk]
      rfl
  cases x with
  | diag d n f =>
    refine (key n (f id) fun k => ((((-d).toNat + k + qs : Nat) : Int), ((d.toNat + k + ss : Nat) : Int))).trans ?_
    constructor
    · rintro ⟨k, hk, rfl⟩; exact ⟨_, ⟨k, hk, rfl⟩, rfl⟩
    · rintro ⟨z, ⟨k, hk, rfl⟩, rfl⟩; exact ⟨k, hk, rfl⟩
  | column c n f =>
    refine (key n (f id) fun k => (((k + qs : Nat) : Int), ((c + ss : Nat) : Int))).trans ?_
    constructor
    · rintro ⟨k, hk, rfl⟩; exact ⟨_, ⟨k, hk, rfl⟩, rfl⟩
    · rintro ⟨z, ⟨k, hk, rfl⟩, rfl⟩; exact ⟨k, hk, rfl⟩
  | shiftSeries n => simp [delivery, Delivery.cells, cells]
  | shiftQuery n => simp [delivery, Delivery.cells, cells]

/-- The same cells are seen by consumers of several generators and by those of one. -/
structure Same (ids : List Nat) (S : Set (Int × Int × (Nat → Fl K))) (t : MSeen K) (u : Nat → Seen K) : Prop where
  ss : ∀ id, (u id).ss = t.ss
  qs : ∀ id, (u id).qs = t.qs
  multi : ∀ y, y ∈ t.cells ↔ ∃ z ∈ S, y = ⟨z.1, z.2.1, ids.map z.2.2⟩
  single : ∀ id y, y ∈ (u id).cells ↔ ∃ z ∈ S, y = ⟨z.1, z.2.1, z.2.2 id⟩

theorem Same.run {ids : List Nat} (L : List (Shape K)) : ∀ {S : Set (Int × Int × (Nat → Fl K))} {t : MSeen K} {u : Nat → Seen K}, Same ids S t u →
    ∃ S', Same ids S' (t.run (L.map (·.multi ids))) fun id => (u id).run (L.map (·.delivery id)) := by
  induction L with
  | nil => intro S t u h; exact ⟨S, h⟩
  | cons x L ih =>
    intro S t u h
    refine ih (S := S ∪ x.cells t.ss t.qs) (t := t.step (x.multi ids)) (u := fun id => (u id).stepWith Delivery.cells (x.delivery id)) ?_
    have hcells : ∀ y : MCell K, (y ∈ t.cells ∨ y ∈ (x.multi ids).cells t.ss t.qs) ↔ ∃ z ∈ S ∪ x.cells t.ss t.qs, y = ⟨z.1, z.2.1, ids.map z.2.2⟩ := by
      intro y
      rw [h.multi, multi_cells]
      constructor
      · rintro (⟨z, hz, e⟩ | ⟨z, hz, e⟩)
        · exact ⟨z, .inl hz, e⟩
        · exact ⟨z, .inr hz, e⟩
      · rintro ⟨z, hz | hz, e⟩
        · exact .inl ⟨z, hz, e⟩
        · exact .inr ⟨z, hz, e⟩
    have hcell : ∀ id (y : Cell K), (y ∈ (u id).cells ∨ y ∈ (x.delivery id).cells (u id).ss (u id).qs) ↔ ∃ z ∈ S ∪ x.cells t.ss t.qs, y = ⟨z.1, z.2.1, z.2.2 id⟩ := by
      intro id y
      rw [h.single, delivery_cells, h.ss, h.qs]
      constructor
      · rintro (⟨z, hz, e⟩ | ⟨z, hz, e⟩)
        · exact ⟨z, .inl hz, e⟩
        · exact ⟨z, .inr hz, e⟩
      · rintro ⟨z, hz | hz, e⟩
        · exact .inl ⟨z, hz, e⟩
        · exact .inr ⟨z, hz, e⟩
    cases x with
    | diag d n f =>
      exact ⟨h.ss, h.qs, hcells, fun id y => by rw [← hcell id y]; exact List.mem_append⟩
    | column c n f =>
      exact ⟨h.ss, h.qs, hcells, fun id y => by rw [← hcell id y]; exact List.mem_append⟩
    | shiftSeries n =>
      refine ⟨fun id => congrArg (· + n) (h.ss id), h.qs, fun y => ?_, fun id y => ?_⟩
      · rw [← hcells y]; exact ⟨.inl, fun e => e.elim (fun e => e) fun e => e.elim⟩
      · rw [← hcell id y]; exact ⟨.inl, fun e => e.elim (fun e => e) fun e => by cases e⟩
    | shiftQuery n =>
      refine ⟨h.ss, fun id => congrArg (· + n) (h.qs id), fun y => ?_, fun id y => ?_⟩
      · rw [← hcells y]; exact ⟨.inl, fun e => e.elim (fun e => e) fun e => e.elim⟩
      · rw [← hcell id y]; exact ⟨.inl, fun e => e.elim (fun e => e) fun e => by cases e⟩

theorem Same.init (ids : List Nat) : Same (K := K) ids ∅ MSeen.init fun _ => Seen.init :=
  ⟨fun _ => rfl, fun _ => rfl, fun y => by simp [MSeen.init], fun id y => by simp [Seen.init]⟩

end Shape

/-! ### Batch calculations -/

/-- The calls of a calculation. -/
def batchShapes (m : Nat) (selfJoin : Bool) (b : Int) (order : List Int) (D : Nat → List α → List α → Fl K) (s q : List α) (u : BSt) : BOp → List (Shape K)
  | .diagonals n => ((order.take n).drop u.next).flatMap fun d =>
      .diag d (diagEntries m q.length s.length d) (fun id k => D id ((s.drop (d.toNat + k)).take m) ((q.drop ((-d).toNat + k)).take m)) ::
        if selfJoin then [.diag (-d) (diagEntries m q.length s.length d) (fun id k => D id ((s.drop (d.toNat + k)).take m) ((q.drop ((-d).toNat + k)).take m))] else []
  | .columns a c => (List.range (c - a)).map fun i => .column (a + i) (q.length + 1 - m) fun id r => pairValue (D id) m b s q r (a + i)

/-- The calls of a sequence of calculations. -/
def allShapes (m : Nat) (selfJoin : Bool) (b : Int) (order : List Int) (D : Nat → List α → List α → Fl K) (s q : List α) : BSt → List BOp → List (Shape K)
  | _, [] => []
  | u, op :: ops => batchShapes m selfJoin b order D s q u op ++ allShapes m selfJoin b order D s q (u.step op) ops

theorem batchShapes_event (m : Nat) (selfJoin : Bool) (b : Int) (order : List Int) (D : Nat → List α → List α → Fl K) (s q : List α) (ids : List Nat) (u : BSt) (op : BOp) :
    (batchShapes m selfJoin b order D s q u op).map (·.event ids) = u.events m selfJoin b order D s q ids op := by
  cases op with
  | diagonals n =>
    simp only [batchShapes, BSt.events, List.map_flatMap]
    congr 1
    funext d
    cases selfJoin <;> rfl
  | columns a c =>
    simp only [batchShapes, BSt.events, List.map_map]
    rfl

theorem batchShapes_delivery (m : Nat) (selfJoin : Bool) (b : Int) (order : List Int) (D : Nat → List α → List α → Fl K) (s q : List α) (id : Nat) (u : BSt) (op : BOp) :
    (batchShapes m selfJoin b order D s q u op).map (·.delivery id) = batchDeliveries m selfJoin b order (D id) s q u op := by
  cases op with
  | diagonals n =>
    simp only [batchShapes, batchDeliveries, List.map_flatMap]
    congr 1
    funext d
    cases selfJoin <;> rfl
  | columns a c =>
    simp only [batchShapes, batchDeliveries, List.map_map]
    rfl

theorem allShapes_event (m : Nat) (selfJoin : Bool) (b : Int) (order : List Int) (D : Nat → List α → List α → Fl K) (s q : List α) (ids : List Nat) (ops : List BOp) :
    ∀ u, (allShapes m selfJoin b order D s q u ops).map (·.event ids) = BSt.allEvents m selfJoin b order D s q ids u ops := by
  induction ops with
  | nil => intro u; rfl
  | cons op ops ih => intro u; simp only [allShapes, BSt.allEvents, List.map_append, batchShapes_event, ih]

theorem allShapes_delivery (m : Nat) (selfJoin : Bool) (b : Int) (order : List Int) (D : Nat → List α → List α → Fl K) (s q : List α) (id : Nat) (ops : List BOp) :
    ∀ u, (allShapes m selfJoin b order D s q u ops).map (·.delivery id) = allDeliveries m selfJoin b order (D id) s q u ops := by
  induction ops with
  | nil => intro u; rfl
  | cons op ops ih => intro u; simp only [allShapes, allDeliveries, List.map_append, batchShapes_delivery, ih]

theorem mem_allShapes {m : Nat} {selfJoin : Bool} {b : Int} {order : List Int} {D : Nat → List α → List α → Fl K} {s q : List α} {us : List BOp} {x : Shape K} :
    ∀ {u : BSt}, x ∈ allShapes m selfJoin b order D s q u us →
      (∃ d n f, x = .diag d n f ∧ ∃ k, .diagonals k ∈ us) ∨ ∃ c f, x = .column c (q.length + 1 - m) f := by
  induction us with
  | nil => intro u h; cases h
  | cons op us ih =>
    intro u h
    rcases List.mem_append.mp h with h | h
    · cases op with
      | diagonals n =>
        left
        obtain ⟨k, hk, hd⟩ := List.mem_flatMap.mp h
        rcases List.mem_cons.mp hd with rfl | hd
        · exact ⟨_, _, _, rfl, n, List.mem_cons_self ..⟩
        · cases selfJoin with
          | false => cases hd
          | true => exact ⟨_, _, _, List.mem_singleton.mp hd, n, List.mem_cons_self ..⟩
      | columns a c =>
        right
        obtain ⟨i, -, rfl⟩ := List.mem_map.mp h
        exact ⟨_, _, rfl⟩
    · rcases ih h with ⟨d, n, f, h1, k, h2⟩ | h1
      · exact .inl ⟨d, n, f, h1, k, List.mem_cons_of_mem _ h2⟩
      · exact .inr h1

/-! ### Streaming calculations -/

/-- The calls caused by a call of the user. -/
def streamShapes (m N : Nat) (M : Option Nat) (b : Int) (D : Nat → List α → List α → Fl K) (u : MSt α) : MOp α → List (Shape K)
  | .series v =>
      let k := moved N u.s.length v.length
      if k = 0 then [] else .shiftSeries k :: (if M.isNone then [.shiftQuery k] else [])
  | .query v =>
      let k := moved (M.getD N) u.q.length v.length
      if k = 0 then [] else [.shiftQuery k]
  | .columns upto =>
      let first := u.next - (u.s.length - N)
      let stop := min upto.toNat ((lastN N u.s).length + 1 - m)
      (List.range (stop - first)).map fun i => .column (first + i) ((lastN (M.getD N) u.q).length + 1 - m) fun id r =>
        u.cell (D id) m b (r + (u.q.length - M.getD N)) (first + i + (u.s.length - N))

/-- The calls during a sequence of calls. -/
def allStreamShapes (m N : Nat) (M : Option Nat) (b : Int) (D : Nat → List α → List α → Fl K) : MSt α → List (MOp α) → List (Shape K)
  | _, [] => []
  | u, op :: ops => streamShapes m N M b D u op ++ allStreamShapes m N M b D (u.step m N M op) ops

theorem streamShapes_event (m N : Nat) (M : Option Nat) (b : Int) (D : Nat → List α → List α → Fl K) (ids : List Nat) (u : MSt α) (op : MOp α) :
    (streamShapes m N M b D u op).map (·.event ids) = u.events m N M b D ids op := by
  cases op with
  | series v =>
    simp only [streamShapes, MSt.events]
    split
    · rfl
    · cases M <;> rfl
  | query v =>
    simp only [streamShapes, MSt.events]
    split <;> rfl
  | columns k =>
    simp only [streamShapes, MSt.events, List.map_map]
    rfl

theorem streamShapes_delivery (m N : Nat) (M : Option Nat) (b : Int) (D : Nat → List α → List α → Fl K) (id : Nat) (u : MSt α) (op : MOp α) :
    (streamShapes m N M b D u op).map (·.delivery id) = u.deliveries m N M b (D id) op := by
  cases op with
  | series v =>
    simp only [streamShapes, MSt.deliveries]
    split
    · rfl
    · cases M <;> rfl
  | query v =>
    simp only [streamShapes, MSt.deliveries]
    split <;> rfl
  | columns k =>
    simp only [streamShapes, MSt.deliveries, List.map_map]
    rfl

theorem allStreamShapes_event (m N : Nat) (M : Option Nat) (b : Int) (D : Nat → List α → List α → Fl K) (ids : List Nat) (us : List (MOp α)) :
    ∀ u, (allStreamShapes m N M b D u us).map (·.event ids) = MSt.allEvents m N M b D ids u us := by
  induction us with
  | nil => intro u; rfl
  | cons op us ih => intro u; simp only [allStreamShapes, MSt.allEvents, List.map_append, streamShapes_event, ih]

theorem allStreamShapes_delivery (m N : Nat) (M : Option Nat) (b : Int) (D : Nat → List α → List α → Fl K) (id : Nat) (us : List (MOp α)) :
    ∀ u, (allStreamShapes m N M b D u us).map (·.delivery id) = MSt.allDeliveries m N M b (D id) u us := by
  induction us with
  | nil => intro u; rfl
  | cons op us ih => intro u; simp only [allStreamShapes, MSt.allDeliveries, List.map_append, streamShapes_delivery, ih]

theorem mem_allStreamShapes {m N : Nat} {M : Option Nat} {b : Int} {D : Nat → List α → List α → Fl K} {us : List (MOp α)} {x : Shape K} :
    ∀ {u : MSt α}, x ∈ allStreamShapes m N M b D u us →
      (∃ n, x = .shiftSeries n ∨ x = .shiftQuery n) ∨ ∃ (c n : Nat) (u' : MSt α) (ρ : Nat → Nat) (γ : Nat), x = .column c n fun id r => u'.cell (D id) m b (ρ r) γ := by
  induction us with
  | nil => intro u h; cases h
  | cons op us ih =>
    intro u h
    rcases List.mem_append.mp h with h | h
    · cases op with
      | series v =>
        left
        simp only [streamShapes] at h
        split at h
        · cases h
        · rcases List.mem_cons.mp h with rfl | h
          · exact ⟨_, .inl rfl⟩
          · cases M with
            | none => exact ⟨_, .inr (List.mem_singleton.mp h)⟩
            | some M => cases h
      | query v =>
        left
        simp only [streamShapes] at h
        split at h
        · cases h
        · exact ⟨_, .inr (List.mem_singleton.mp h)⟩
      | columns k =>
        right
        obtain ⟨i, -, rfl⟩ := List.mem_map.mp h
        exact ⟨_, _, u, fun r => r + (u.q.length - M.getD N), _, rfl⟩
    · exact ih h

end Verif
