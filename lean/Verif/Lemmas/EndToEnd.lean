import Verif.Model.EndToEnd
import Verif.Spec.Nearest
import Verif.Lemmas.Serves
import Verif.Props.Anytime
import Verif.Props.MatrixProfile

/-!
A calculator with one generator: what the generator is asked and what the consumers receive.
-/

namespace Verif
open Spec
variable {G C K : Type}

/-! ### The generator -/

/-- The values of diagonal `d`. -/
def diagRow {E : Type} (D : List E → List E → Fl K) (m : Nat) (s q : List E) (d : Int) : List (Fl K) :=
  (List.range (diagEntries m q.length s.length d)).map fun k => D (win m s (d.toNat + k)) (win m q ((-d).toNat + k))

/-- The values of column `c`. -/
def colRow (D : List K → List K → Fl K) (m : Nat) (s q : List K) (c : Nat) : List (Fl K) :=
  (List.range (q.length + 1 - m)).map fun r => D (win m s c) (win m q r)

theorem npRow_self (v : List (Fl K)) (n : Nat) (h : v.length = n) : npRow n v = .ok v := by
  unfold npRow; rw [if_pos h]

theorem Serves.gives_columns {gops : GenOps G K} {m N : Nat} {M : Option Nat} {D : List K → List K → Fl K} {Ok : GSt K → GOp K → Prop}
    {Inv : G → GSt K → Prop} (H : Serves gops m N M D Ok Inv) (s q : List K)
    (hOk : ∀ (l : Option (Int × Bool)) (c : Nat), c + m ≤ s.length → (GSt.mk s q l).Safe (.column c) → Ok ⟨s, q, l⟩ (.column c))
    (xs : List Nat) (hx : ∀ c ∈ xs, c + m ≤ s.length) : ∀ (g : G) (l : Option (Int × Bool)), Inv g ⟨s, q, l⟩ →
      (∀ c ∈ xs, (GSt.mk s q l).Safe (.column c)) →
      ∃ g' l', Gives gops.calcColumn (fun _ => q.length + 1 - m) (fun c => colRow D m s q c.toNat) (xs.map fun c : Nat => (c : Int)) g g' ∧
        Inv g' ⟨s, q, l'⟩ ∧ (∀ t e, l' = some (t, e) → (e = true ∧ ∃ c ∈ xs, t = (c : Int)) ∨ l = some (t, e)) := by
  induction xs with
  | nil => intro g l hi _; exact ⟨g, l, rfl, hi, fun t e h => .inr h⟩
  | cons c xs ih =>
    intro g l hi hs
    obtain ⟨g1, h1, h2⟩ := H.column g ⟨s, q, l⟩ c hi (hOk l c (hx c (by simp)) (hs c (by simp)))
    obtain ⟨g', l', h3, h4, h5⟩ := ih (fun c hc => hx c (by simp [hc])) g1 (some (c, true)) h2 (by
      intro c' _ t e h
      cases h; exact .inl rfl)
    refine ⟨g', l', ⟨g1, _, h1, npRow_self _ _ (by simp), ?_⟩, h4, ?_⟩
    · simpa using h3
    · intro t e h
      rcases h5 t e h with ⟨he, c', hc', rfl⟩ | h
      · exact .inl ⟨he, c', by simp [hc'], rfl⟩
      · cases h; exact .inl ⟨rfl, c, by simp, rfl⟩

theorem Serves.gives_diags {gops : GenOps G K} {m N : Nat} {M : Option Nat} {D : List K → List K → Fl K} {Ok : GSt K → GOp K → Prop}
    {Inv : G → GSt K → Prop} (H : Serves gops m N M D Ok Inv) (st : GSt K) (hOk : ∀ d, st.Valid m M (.diag d) → Ok st (.diag d))
    (n : Int → Nat) (xs : List Int) (hn : ∀ d ∈ xs, n d = diagEntries m st.q.length st.s.length d)
    (hx : ∀ d ∈ xs, st.Valid m M (.diag d)) : ∀ g, Inv g st →
      ∃ g', Gives gops.calcDiagonal n (diagRow D m st.s st.q) xs g g' ∧ Inv g' st := by
  induction xs with
  | nil => intro g hi; exact ⟨g, rfl, hi⟩
  | cons d xs ih =>
    intro g hi
    obtain ⟨g1, h1, h2⟩ := H.diag g st d hi (hOk d (hx d (by simp)))
    obtain ⟨g', h3, h4⟩ := ih (fun c hc => hn c (by simp [hc])) (fun c hc => hx c (by simp [hc])) g1 h2
    exact ⟨g', ⟨g1, _, h1, npRow_self _ _ (by rw [hn d (by simp)]; simp), h3⟩, h4⟩

theorem allAsked_one (ask : G → Int → Except PyErr (G × List (Fl K))) (n : Int → Nat) (r : Int → List (Fl K)) (xs : List Int) (g g' : G)
    (d : Nat) (h : Gives ask n r xs g g') : AllAsked ask n [0] (fun _ => r) xs [(g, d)] [(g', d)] := by
  refine ⟨rfl, ?_, ?_⟩
  · intro id hid
    rw [List.mem_singleton] at hid
    subst hid
    exact ⟨g, d, g', rfl, rfl, h⟩
  · intro id hid
    rw [List.mem_singleton] at hid
    cases id with
    | zero => exact absurd rfl hid
    | succ i => rfl

/-- Consumers of the single generator. -/
theorem allFed_one (ops : Ops G C K) (evs : List Nat → List (CEvent K)) (cs cs' : List C)
    (h : List.Forall₂ (fun c c' => feed ops c (evs [0]) = .ok c') cs cs') :
    AllFed ops evs (cs.map fun c => (c, [0])) (cs'.map fun c => (c, [0])) := by
  unfold AllFed
  rw [List.forall₂_map_left_iff, List.forall₂_map_right_iff]
  exact h.imp fun a b h => ⟨rfl, h⟩

/-! ### The assembled calculator -/

theorem addConsumers_ok (ops : Ops G C K) (consumers cs' : List C) : ∀ (st : Anytime G C K),
    List.Forall₂ (fun c c' => ops.initialise c 1 st.base.numQuery st.base.numSeries = .ok c') consumers cs' →
    Anytime.addConsumers ops consumers st = .ok { st with base := { st.base with cons := st.base.cons ++ cs'.map fun c => (c, [0]) } } := by
  induction consumers generalizing cs' with
  | nil => intro st h; cases h; simp [Anytime.addConsumers]
  | cons c cs ih =>
    intro st h
    obtain ⟨c', cs'', h1, h2, rfl⟩ := List.forall₂_cons_left_iff.mp h
    unfold Anytime.addConsumers
    have e : st.addConsumer ops [0] c = .ok { st with base := { st.base with cons := st.base.cons ++ [(c', [0])] } } := by
      unfold Anytime.addConsumer Calc.addConsumer
      simp only [List.length_singleton, h1, bind, Except.bind, pure, Except.pure]
    simp only [e, bind, Except.bind]
    have := ih cs'' { st with base := { st.base with cons := st.base.cons ++ [(c', [0])] } } h2
    exact this.trans (by simp)

/-- An assembled calculator before any calculation. -/
structure Assembled (st : Anytime G C K) (g : G) (cs : List C) (selfJoin : Bool) (h w : Nat) (buffer : Int) : Prop where
  valid : st.Valid [0]
  next : st.next = 0
  gens : st.base.gens = [(g, 0)]
  cons : st.base.cons = cs.map fun c => (c, [0])
  self : st.base.selfJoin = selfJoin
  rows : st.base.numQuery = h
  cols : st.base.numSeries = w
  buf : st.base.buffer = buffer
  last : st.base.lastCol = -1

theorem assemble_ok (ops : Ops G C K) (prepare : Int → List (Fl K) → Option (List (Fl K)) → Except PyErr G)
    (shuffle : List Int → List Int) (hsh : ∀ l, (shuffle l).Perm l) (consumers cs : List C) (m : Nat) (hm0 : 0 < m) (s : List K)
    (q : Option (List K)) (buffer : Option Int) (hm : m ≤ s.length) (hq : ∀ q', q = some q' → m ≤ q'.length) (g : G)
    (hg : prepare m (s.map .fin) (q.map (·.map .fin)) = .ok g)
    (hb : q = none → -1 ≤ buffer.getD (m / 2) ∧ buffer.getD (m / 2) < ((s.length + 1 - m : Nat) : Int)) (hne : cs ≠ [])
    (hcs : List.Forall₂ (fun c c' => ops.initialise c 1 (((q.getD s).length + 1 - m : Nat) : Int) ((s.length + 1 - m : Nat) : Int) = .ok c') consumers cs) :
    ∃ st, Anytime.assemble ops prepare shuffle consumers m (s.map .fin) (q.map (·.map .fin)) buffer = .ok st ∧
      Assembled st g cs q.isNone ((q.getD s).length + 1 - m) (s.length + 1 - m) (if q.isNone then buffer.getD (m / 2) else -1) := by
  have hql : m ≤ (q.getD s).length := by
    cases q with
    | none => exact hm
    | some q' => exact hq q' rfl
  obtain ⟨st, hst⟩ : ∃ st : Anytime G C K, Anytime.init shuffle m [s.map .fin] ((q.map (·.map .fin)).map fun q => [q]) buffer = .ok st ∧
      st.base.gens = [] ∧ st.base.cons = [] ∧ st.base.lastCol = -1 ∧ st.base.numSeries = ((s.length + 1 - m : Nat) : Int) ∧
      st.base.numQuery = (((q.getD s).length + 1 - m : Nat) : Int) ∧ st.base.selfJoin = q.isNone ∧
      st.base.buffer = (if q.isNone then buffer.getD (m / 2) else -1) ∧ st.base.nDim = 1 ∧ st.base.m = m ∧ st.series = [s.map .fin] ∧
      st.query = [(q.getD s).map .fin] := by
    have e1 : ((s.length : Int) - m + 1) = ((s.length + 1 - m : Nat) : Int) := by omega
    obtain ⟨base, hbase, k1, k2, k3, k4, k5, k6, k7, k8, k9⟩ : ∃ base : Calc G C, Calc.init q.isNone m ((s.length + 1 - m : Nat) : Int)
        (((q.getD s).length + 1 - m : Nat) : Int) 1 buffer = .ok base ∧ base.gens = [] ∧ base.cons = [] ∧ base.lastCol = -1 ∧
        base.numSeries = ((s.length + 1 - m : Nat) : Int) ∧ base.numQuery = (((q.getD s).length + 1 - m : Nat) : Int) ∧
        base.selfJoin = q.isNone ∧ base.buffer = (if q.isNone then buffer.getD (m / 2) else -1) ∧ base.nDim = 1 ∧ base.m = m := by
      cases q with
      | none =>
        have hb := hb rfl
        have hmem : buffer.getD ((m : Int) / 2) ∈ pyRange (-1) ((s.length + 1 - m : Nat) : Int) := by rw [mem_pyRange]; omega
        simp [Calc.init, hmem]
      | some q' => simp [Calc.init]
    have hinit : Anytime.init shuffle m [s.map .fin] ((q.map (·.map .fin)).map fun q => [q]) buffer = .ok
        { base := base, series := [s.map .fin], query := [(q.getD s).map .fin], order := shuffle (Anytime.diagonals base),
          total := if base.selfJoin then (base.numSeries - base.buffer - 1) * (base.numSeries - base.buffer - 1 + 1) / 2
            else base.numQuery * base.numSeries,
          next := 0, calculated := 0 } := by
      have e2 : (((q.getD s).length : Int) - m + 1) = (((q.getD s).length + 1 - m : Nat) : Int) := by omega
      unfold Anytime.init
      cases q with
      | none =>
        simp only [Option.isNone_none, Option.getD_none] at hbase
        simp only [Option.map_none, Option.isNone_none, Option.getD_none, ne_eq, not_true, if_false, Anytime.npCols, List.head?_cons,
          Option.getD_some, List.length_map, e1, List.length_singleton, hbase, bind, Except.bind, pure, Except.pure]
      | some q' =>
        simp only [Option.isNone_some, Option.getD_some] at hbase e2
        simp only [Option.map_some, Option.isNone_some, Option.getD_some, ne_eq, List.length_singleton, not_true, if_false, Anytime.npCols,
          List.head?_cons, List.length_map, e1, e2, hbase, bind, Except.bind, pure, Except.pure]
    exact ⟨_, hinit, k1, k2, k3, k4, k5, k6, k7, k8, k9, rfl, rfl⟩
  obtain ⟨h0, g0, c0, l0, w0, q0, s0, b0, n0, m0, se0, qe0⟩ := hst
  obtain ⟨v0, x0, y0, -, -⟩ := C20_init_valid shuffle hsh m _ _ buffer st h0 (by omega) (by omega)
  have h1 : st.addGenerator prepare 0 = .ok { st with base := { st.base with gens := st.base.gens ++ [(g, 0)] } } := by
    unfold Anytime.addGenerator
    rw [if_neg (by rw [n0]; simp)]
    have e : pyGet st.series 0 = .ok (s.map .fin) := by rw [se0]; rfl
    have e' : pyGet st.query 0 = .ok ((q.getD s).map .fin) := by rw [qe0]; rfl
    simp only [e, e', bind, Except.bind, pure, Except.pure, s0, m0]
    cases q with
    | none =>
      rw [Option.map_none] at hg
      simp [hg]
    | some q' =>
      rw [Option.map_some] at hg
      simp [hg]
  have v1 := ((C20_add_valid ops st [] v0 _).1 ⟨prepare, 0, h1⟩)
  have h2 := addConsumers_ok ops consumers cs { st with base := { st.base with gens := st.base.gens ++ [(g, 0)] } } (by simpa [w0, q0] using hcs)
  refine ⟨{ st with base := { st.base with gens := st.base.gens ++ [(g, 0)], cons := st.base.cons ++ cs.map fun c => (c, [0]) } }, ?_, ?_⟩
  · unfold Anytime.assemble
    simp only [h0, h1, bind, Except.bind]
    exact h2
  · refine ⟨?_, x0, by simp [g0], by simp [c0], s0, q0, w0, b0, l0⟩
    obtain ⟨a1, a2, a3, a4, a5, a6, a7, a8⟩ := v1.1
    refine ⟨⟨by simp, ?_⟩, a2, a3, a4, a5, a6, a7, a8⟩
    intro id
    simp only [c0, List.nil_append, List.mem_singleton, List.mem_map]
    constructor
    · rintro rfl
      obtain ⟨c, hc⟩ := List.exists_mem_of_ne_nil cs hne
      exact ⟨_, ⟨c, hc, rfl⟩, by simp⟩
    · rintro ⟨_, ⟨c, -, rfl⟩, h⟩
      simpa using h

/-- The events of the diagonals `xs`. -/
def diagEvents (D : List K → List K → Fl K) (m : Nat) (s q : List K) (selfJoin : Bool) (xs : List Int) : List (CEvent K) :=
  xs.flatMap fun d => diagEvs selfJoin d [diagRow D m s q d]

theorem diagLength_entries (m : Nat) (s q : List K) (hs : m ≤ s.length) (hq : m ≤ q.length) (hm : 0 < m) (d : Int) (h1 : d + m ≤ s.length)
    (h2 : -d + m ≤ q.length) :
    (diagLength ((q.length + 1 - m : Nat) : Int) ((s.length + 1 - m : Nat) : Int) d).toNat = diagEntries m q.length s.length d := by
  unfold diagLength diagEntries
  split <;> omega

/-- Any part of the diagonals can be calculated as soon as the consumers take the values. -/
theorem diagsDone_ok {gops : GenOps G K} {m : Nat} {N : Nat} {M : Option Nat} {D : List K → List K → Fl K} {Ok : GSt K → GOp K → Prop}
    {Inv : G → GSt K → Prop} (H : Serves gops m N M D Ok Inv) (ops : Ops G C K) (hops : ops.calcDiagonal = gops.calcDiagonal) (s q : List K) (hm0 : 0 < m)
    (hs : m ≤ s.length) (hq : m ≤ q.length) (hOk : ∀ d, (GSt.mk s q none).Valid m M (.diag d) → Ok ⟨s, q, none⟩ (.diag d))
    {st : Anytime G C K} {g : G} {cs : List C} {self : Bool} {b : Int}
    (ha : Assembled st g cs self (q.length + 1 - m) (s.length + 1 - m) b) (hb : -1 ≤ b) (hself : self = true → q.length = s.length)
    (hi : Inv g ⟨s, q, none⟩) (xs : List Int) (hx : xs.Sublist st.order) (cs' : List C)
    (hf : List.Forall₂ (fun c c' => feed ops c (diagEvents D m s q self xs) = .ok c') cs cs') :
    ∃ st', DiagsDone ops [0] xs st st' ∧ st'.base.cons = cs'.map fun c => (c, [0]) := by
  have hord : ∀ d ∈ st.order, d + m ≤ s.length ∧ -d + m ≤ q.length := by
    intro d hd
    have hd := (ha.valid.order.mem_iff).mp hd
    unfold Anytime.diagonals at hd
    rw [ha.self, ha.rows, ha.cols, ha.buf] at hd
    split at hd
    · rename_i h
      have := hself h
      rw [mem_pyRange] at hd
      omega
    · rw [mem_pyRange] at hd
      omega
  have hnd : st.order.Nodup := by
    rw [ha.valid.order.nodup_iff]
    unfold Anytime.diagonals
    split <;> exact pyRange_nodup _ _
  obtain ⟨g', h1, h2⟩ := H.gives_diags ⟨s, q, none⟩ hOk (fun d => (diagLength st.base.numQuery st.base.numSeries d).toNat) xs
    (fun d hd => by
      have := hord d (hx.subset hd)
      simp only [ha.rows, ha.cols]
      exact diagLength_entries m s q hs hq hm0 d this.1 this.2)
    (fun d hd => by
      have := hord d (hx.subset hd)
      exact ⟨this.1, this.2, hs, hq⟩) g hi
  let st' : Anytime G C K := { st with base := { st.base with gens := [(g', 0)], cons := cs'.map fun c => (c, [0]) }
                                       calculated := st.calculated + lens st xs
                                       next := st.next + xs.length }
  refine ⟨st', ⟨?_, rfl⟩, rfl⟩
  rw [DiagRounds, RoundsRel_iff _ _ _ _ _ _ (hx.nodup hnd) _ _ ha.valid.covers (by rw [ha.gens]; simp)]
  refine ⟨fun _ => diagRow D m s q, ?_, ?_⟩
  · rw [hops]
    simp only [ha.gens]
    exact allAsked_one _ _ _ _ _ _ _ h1
  · simp only [ha.cons, ha.self]
    exact allFed_one _ _ _ _ hf

end Verif
