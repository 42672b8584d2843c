import Verif.Lemmas.Sessions
import Verif.Props.BatchFeed

/-!
Sessions with an `AnytimeCalculator`.
-/

namespace Verif
open Spec
variable {α E G C K P O σ : Type}

/-- The consumers get the distances of their own generators only. -/
theorem Spec.BSt.events_congr (m : Nat) (selfJoin : Bool) (b : Int) (order : List Int) (D D' : Nat → List α → List α → Fl K) (s q : List α) (ids : List Nat)
    (h : ∀ id ∈ ids, D id = D' id) (u : BSt) (x : BOp) : u.events m selfJoin b order D s q ids x = u.events m selfJoin b order D' s q ids x := by
  cases x with
  | diagonals n =>
    have e : ∀ d, (ids.map fun id => diagValues (D id) m s q d) = ids.map fun id => diagValues (D' id) m s q d := fun d =>
      List.map_congr_left fun id hid => by rw [h id hid]
    simp only [BSt.events, e]
  | columns a c =>
    simp only [BSt.events]
    apply List.map_congr_left
    intro i _
    congr 1
    exact List.map_congr_left fun id hid => by rw [h id hid]

section
variable {ops : Ops G C K} {m N : Nat} {M : Option Nat} {D : Nat → List K → List K → Fl K} {Ok : Nat → GSt K → GOp K → Prop}
  {Inv : Nat → G → GSt K → Prop} {π : Nat → α → K} {chan : List Nat} {s q : List α} {selfJoin : Bool} {b : Int} {order : List Int} {needed : List Nat}

/-- One call. -/
theorem batch_step (H : ∀ i < chan.length, Serves ops.gen m N M (D i) (Ok i) (Inv i)) (hm0 : 0 < m) (hs : m ≤ s.length) (hq : m ≤ q.length)
    (hb : -1 ≤ b) (hself : selfJoin = true → q.length = s.length)
    (hokd : ∀ (i ch : Nat), chan[i]? = some ch → ∀ (l : Option (Int × Bool)) (d : Int),
      (GSt.mk (s.map (π ch)) (q.map (π ch)) l).Valid m M (.diag d) → Ok i ⟨s.map (π ch), q.map (π ch), l⟩ (.diag d))
    (x : BOp) (o : Anytime.Op)
    (hokc : ∀ a c, a < c → x = .columns a c → ∀ (i ch : Nat), chan[i]? = some ch → ∀ (l : Option (Int × Bool)) (c : Nat), c + m ≤ s.length →
      (GSt.mk (s.map (π ch)) (q.map (π ch)) l).Safe (.column c) → Ok i ⟨s.map (π ch), q.map (π ch), l⟩ (.column c))
    (st : Anytime G C K) (u : BSt) (hi : BatchInv Inv π chan m s q selfJoin b order needed st u) (hc : IsBatchCall m q.length s.length order u x o)
    (cons' : List (C × List Nat)) (hf : AllFed ops (fun ids => u.events m selfJoin b order (frameDist π chan D) s q ids x) st.base.cons cons') :
    ∃ st', st.step ops needed o = .ok st' ∧ st'.base.cons = cons' ∧ BatchInv Inv π chan m s q selfJoin b order needed st' (u.step x) := by
  have hbd := (hi.order_bounds hb hs hq hself).1
  have hcs : AreBatchCalls m q.length s.length order u [x] [o] := ⟨hc, trivial⟩
  have hex : ∀ V : Table K, OpTable m chan.length (fun id w y v => v = frameDist π chan D id w y) (fun id w y v => frameDist π chan D id w y = v) s q (x, V) →
      ∀ c ∈ st.base.cons, u.tableEvents m selfJoin b order q.length s.length c.2 V x = u.events m selfJoin b order (frameDist π chan D) s q c.2 x := by
    intro V hV c hcm
    have h1 := allTableEvents_eq m selfJoin b order (frameDist π chan D) s q chan.length hbd _ c.2 (hi.ids c hcm) [(x, V)]
      (by intro y hy; rw [List.mem_singleton.mp hy]; exact hV) u
    have h2 := batchEventsOf_exact (selfJoin := selfJoin) (b := b) (order := order) (q := q) c.2 chan.length (hi.ids c hcm) (frameDist π chan D) hs
      ([(x, V)].map fun x => (x.1, match x.1 with | .diagonals _ => fun id r c => frameDist π chan D id (win m s c) (win m q r) | .columns _ _ => x.2)) u
      (by simpa using hcs.columns_fit hs) (by
        intro y hy
        rw [List.map_singleton, List.mem_singleton] at hy
        subst hy
        cases x with
        | diagonals n => exact fun _ _ _ _ _ _ => rfl
        | columns a c => exact hV)
    have h3 := h1.trans h2
    simpa [BSt.allTableEvents, BSt.allEvents] using h3
  have HW : ∀ i < chan.length, WinServes ops.gen m N M (fun w x v => v = D i w x) (fun w x v => D i w x = v) (Ok i) (Inv i) := fun i h => (H i h).near.windows
  cases x with
  | diagonals n =>
    cases o with
    | columns ints start upto => exact hc.elim
    | diagonals ints p =>
      obtain ⟨V, hV, st', h1, h2, h3⟩ := batch_diagonals HW (fun _ _ _ => rfl) hm0 hs hq hb hself hokd st u hi n ints p hc
        (fun V hV => ⟨cons', hf.congr fun c hcm => (hex V hV c hcm).symm⟩)
      exact ⟨st', h1, (h2.congr fun c hcm => hex V hV c hcm).unique hf, h3⟩
  | columns a c =>
    cases o with
    | diagonals ints p => exact hc.elim
    | columns ints start upto =>
      obtain ⟨V, hV, st', h1, h2, h3⟩ := batch_columns HW (fun _ _ _ => rfl) hm0 hs hq hb st u hi a c (fun h => hokc a c h rfl) ints start upto hc
        (fun V hV => ⟨cons', hf.congr fun c hcm => (hex V hV c hcm).symm⟩)
      exact ⟨st', h1, (h2.congr fun c hcm => hex V hV c hcm).unique hf, h3⟩

end

/-- What a calculator never changes after its construction. -/
theorem Anytime.diagonalLoop_static (ops : Ops G C K) (needed : List Nat) (ints : Nat → Bool) (v : Int) : ∀ (ds : List Int) (st st' : Anytime G C K),
    Anytime.diagonalLoop ops needed ints v ds st = .ok st' →
      st'.series = st.series ∧ st'.query = st.query ∧ st'.base.m = st.base.m ∧ st'.base.nDim = st.base.nDim := by
  intro ds
  induction ds with
  | nil =>
    intro st st' h
    rw [Anytime.diagonalLoop] at h
    split at h
    · cases h
    · cases h; exact ⟨rfl, rfl, rfl, rfl⟩
  | cons d ds ih =>
    intro st st' h
    rw [Anytime.diagonalLoop] at h
    split at h
    · obtain ⟨st1, h1, h2⟩ := bind_ok_iff.mp h
      have := ih st1 st' h2
      unfold Anytime.diagonalStep at h1
      simp only [bind_ok_iff] at h1
      obtain ⟨a, -, c, -, h1⟩ := h1
      cases h1
      exact this
    · cases h; exact ⟨rfl, rfl, rfl, rfl⟩

theorem Calc.columnLoop_static (ops : Ops G C K) (needed : List Nat) (n : Nat) (ints : Int → Bool) : ∀ (k : Nat) (c : Int) (x y : Calc G C × List (List (Fl K))),
    Calc.columnLoop ops needed n ints k c x = .ok y → y.1.m = x.1.m ∧ y.1.nDim = x.1.nDim := by
  intro k
  induction k with
  | zero => intro c x y h; rw [Calc.columnLoop] at h; cases h; exact ⟨rfl, rfl⟩
  | succ k ih =>
    intro c x y h
    rw [Calc.columnLoop] at h
    split at h
    · cases h; exact ⟨rfl, rfl⟩
    · obtain ⟨z, h1, h2⟩ := bind_ok_iff.mp h
      have := ih _ z y h2
      unfold Calc.columnStep at h1
      simp only [bind_ok_iff] at h1
      obtain ⟨a, -, c, -, h1⟩ := h1
      cases h1
      exact this

theorem Anytime.step_static (ops : Ops G C K) (needed : List Nat) (st st' : Anytime G C K) (o : Anytime.Op) (h : st.step ops needed o = .ok st') :
    st'.series = st.series ∧ st'.query = st.query ∧ st'.base.m = st.base.m ∧ st'.base.nDim = st.base.nDim := by
  cases o with
  | diagonals ints p =>
    simp only [Anytime.step, Anytime.calculateDiagonals, bind_ok_iff] at h
    obtain ⟨_, _, v, _, h⟩ := h
    exact Anytime.diagonalLoop_static ops needed ints v _ _ _ h
  | columns ints start upto =>
    simp only [Anytime.step, Anytime.calculateColumns, Calc.calculateColumns, bind_ok_iff] at h
    obtain ⟨b, ⟨a, _, c, _, rows, _, z, h1, h2⟩, h3⟩ := h
    have := Calc.columnLoop_static ops needed _ ints _ _ _ _ h1
    cases h2
    cases h3
    exact ⟨rfl, rfl, this.1, this.2⟩

/-- The state without consumers. -/
def Anytime.bare (st : Anytime G C K) : Anytime G C K := { st with base := { st.base with cons := [] } }

section
variable {m : Nat} {Inv : Nat → G → GSt E → Prop} {π : Nat → α → E} {chan : List Nat} {s q : List α} {selfJoin : Bool} {b : Int} {order : List Int}

theorem BatchInv.bare {needed : List Nat} {st : Anytime G C K} {u : BSt} (h : BatchInv Inv π chan m s q selfJoin b order needed st u) :
    BatchInv Inv π chan m s q selfJoin b order [] st.bare u :=
  ⟨h.genLen, h.gen, ⟨⟨List.nodup_nil, by simp [Anytime.bare]⟩, h.valid.order, h.valid.next, h.valid.calculated, h.valid.total, h.valid.pos, h.valid.rows,
    h.valid.cols⟩, by simp [Anytime.bare], h.selfJoin, h.cols, h.rows, h.buffer, h.order, h.next, h.last, h.colLe⟩

theorem BatchInv.dress {needed : List Nat} {st : Anytime G C K} {u : BSt} (h : BatchInv Inv π chan m s q selfJoin b order [] st.bare u)
    (hn : st.base.Needed needed) (hids : ∀ c ∈ st.base.cons, ∀ id ∈ c.2, id < chan.length) : BatchInv Inv π chan m s q selfJoin b order needed st u :=
  ⟨h.genLen, h.gen, ⟨hn, h.valid.order, h.valid.next, h.valid.calculated, h.valid.total, h.valid.pos, h.valid.rows,
    h.valid.cols⟩, hids, h.selfJoin, h.cols, h.rows, h.buffer, h.order, h.next, h.last, h.colLe⟩

end

end Verif
