import Verif.Lemmas.BatchFeed
import Verif.Lemmas.Assembly

/-!
Batch calculators with several generators and consumers.
-/

namespace Verif
open Spec
variable {α E G C K : Type}

/-- The 2-D array of `nDim` channels whose columns are the frames. -/
def frameRowsOf (ρ : Nat → α → Fl K) (nDim : Nat) (s : List α) : List (List (Fl K)) := (List.range nDim).map fun ch => s.map fun x => ρ ch x

/-- The same for finite data. -/
abbrev frameRows (π : Nat → α → K) (nDim : Nat) (s : List α) : List (List (Fl K)) := frameRowsOf (fun ch x => .fin (π ch x)) nDim s

theorem frameRows_length (ρ : Nat → α → Fl K) (nDim : Nat) (s : List α) : (frameRowsOf ρ nDim s).length = nDim := by simp [frameRowsOf]

theorem frameRows_cols (ρ : Nat → α → Fl K) (nDim : Nat) (hn : 0 < nDim) (s : List α) : Anytime.npCols (frameRowsOf ρ nDim s) = s.length := by
  unfold Anytime.npCols frameRowsOf
  obtain ⟨n, rfl⟩ : ∃ n, nDim = n + 1 := ⟨nDim - 1, by omega⟩
  rw [List.range_succ_eq_map]
  simp

theorem frameRows_get (ρ : Nat → α → Fl K) (nDim : Nat) (s : List α) (ch : Nat) (h : ch < nDim) :
    pyGet (frameRowsOf ρ nDim s) (ch : Int) = .ok (s.map (ρ ch)) := by
  rw [pyGet_nat_ok]
  unfold frameRowsOf
  rw [List.getElem?_map, List.getElem?_range h]
  rfl

theorem anyAddGenerators_ok (gens : List ((Int → List (Fl K) → Option (List (Fl K)) → Except PyErr G) × Nat)) (bound : List (G × Nat)) (m : Nat)
    (s q : Nat → List (Fl K)) :
    ∀ st : Anytime G C K, st.base.m = m → 
      List.Forall₂ (fun g g' => g'.2 = g.2 ∧ g.2 < st.base.nDim ∧ pyGet st.series (g.2 : Int) = .ok (s g.2) ∧ pyGet st.query (g.2 : Int) = .ok (q g.2) ∧
        g.1 m (s g.2) (if st.base.selfJoin then none else some (q g.2)) = .ok g'.1) gens bound →
      Anytime.addGenerators gens st = .ok { st with base := { st.base with gens := st.base.gens ++ bound } } := by
  induction gens generalizing bound with
  | nil =>
    intro st _ h
    cases h
    simp [Anytime.addGenerators]
  | cons g gs ih =>
    intro st hm h
    obtain ⟨g', bound', ⟨h1, h2, h3, h5, h6⟩, h4, rfl⟩ := List.forall₂_cons_left_iff.mp h
    have hadd : st.addGenerator g.1 (g.2 : Int) = .ok { st with base := { st.base with gens := st.base.gens ++ [g'] } } := by
      unfold Anytime.addGenerator
      rw [if_neg (by omega), hm, h3, h5]
      simp only [bind, Except.bind, pure, Except.pure, Int.toNat_natCast]
      cases hs : st.base.selfJoin with
      | true =>
        rw [hs] at h6
        simp only [if_true] at h6 ⊢
        rw [h6]
        simp only
        rw [← h1]
      | false =>
        rw [hs] at h6
        simp only [Bool.false_eq_true, if_false] at h6 ⊢
        rw [h6]
        simp only
        rw [← h1]
    rw [Anytime.addGenerators, hadd]
    simp only [bind, Except.bind]
    rw [ih bound' { st with base := { st.base with gens := st.base.gens ++ [g'] } } hm h4]
    simp

theorem anyAddConsumers_ok (ops : Ops G C K) (consumers cons' : List (C × List Nat)) :
    ∀ st : Anytime G C K, List.Forall₂ (fun c c' => c'.2 = c.2 ∧ ops.initialise c.1 c.2.length st.base.numQuery st.base.numSeries = .ok c'.1) consumers cons' →
      Anytime.addAllConsumers ops consumers st = .ok { st with base := { st.base with cons := st.base.cons ++ cons' } } := by
  induction consumers generalizing cons' with
  | nil => intro st h; cases h; simp [Anytime.addAllConsumers]
  | cons c cs ih =>
    intro st h
    obtain ⟨c', cs', ⟨h1, h2⟩, h4, rfl⟩ := List.forall₂_cons_left_iff.mp h
    have hadd : st.addConsumer ops c.2 c.1 = .ok { st with base := { st.base with cons := st.base.cons ++ [c'] } } := by
      unfold Anytime.addConsumer Calc.addConsumer
      simp only [h2, bind, Except.bind, pure, Except.pure]
      rw [← h1]
    rw [Anytime.addAllConsumers, hadd]
    simp only [bind, Except.bind]
    rw [ih cs' { st with base := { st.base with cons := st.base.cons ++ [c'] } } h4]
    simp

theorem batchAll_win {enc : E → Fl K} {ops : Ops G C K} (shuffle : List Int → List Int) (hsh : ∀ l, (shuffle l).Perm l) {m : Nat} {D : Nat → List E → List E → Fl K}
    {RelD RelC : Nat → List E → List E → Fl K → Prop}
    {Ok : Nat → GSt E → GOp E → Prop} {Inv : Nat → G → GSt E → Prop} {π : Nat → α → E} {nDim : Nat}
    (gens : List ((Int → List (Fl K) → Option (List (Fl K)) → Except PyErr G) × Nat)) (s : List α) (query : Option (List α))
    (H : ∀ i < gens.length, WinServes ops.gen m s.length (query.map (·.length)) (RelD i) (RelC i) (Ok i) (Inv i))
    (hreflD : ∀ i a b, RelD i a b (D i a b)) (hreflC : ∀ i a b, RelC i a b (D i a b)) (hm0 : 0 < m) (hn : 0 < nDim)
    (hs : m ≤ s.length) (hq : ∀ q, query = some q → m ≤ q.length) (hchan : ∀ g ∈ gens, g.2 < nDim)
    (hprep : ∀ (i : Nat) g, gens[i]? = some g → ∃ x, g.1 m ((s.map (π g.2)).map enc) (query.map fun q => (q.map (π g.2)).map enc) = .ok x ∧
      Inv i x ⟨s.map (π g.2), (query.getD s).map (π g.2), none⟩)
    (needed : List Nat) (buffer : Option Int) (hb : query = none → -1 ≤ buffer.getD (m / 2) ∧ buffer.getD (m / 2) < ((s.length + 1 - m : Nat) : Int))
    (hokd : ∀ (i : Nat) g, gens[i]? = some g → ∀ (l : Option (Int × Bool)) (d : Int),
      (GSt.mk (s.map (π g.2)) ((query.getD s).map (π g.2)) l).Valid m (query.map (·.length)) (.diag d) →
      Ok i ⟨s.map (π g.2), (query.getD s).map (π g.2), l⟩ (.diag d))
    (us : List BOp)
    (hokc : (∃ a c, a < c ∧ .columns a c ∈ us) → ∀ (i : Nat) g, gens[i]? = some g → ∀ (l : Option (Int × Bool)) (c : Nat), c + m ≤ s.length →
      (GSt.mk (s.map (π g.2)) ((query.getD s).map (π g.2)) l).Safe (.column c) → Ok i ⟨s.map (π g.2), (query.getD s).map (π g.2), l⟩ (.column c))
    (consumers cons1 : List (C × List Nat)) (hneed : needed.Nodup ∧ ∀ id, id ∈ needed ↔ ∃ c ∈ consumers, id ∈ c.2)
    (hids : ∀ c ∈ consumers, ∀ id ∈ c.2, id < gens.length)
    (hinit : List.Forall₂ (fun c c' => c'.2 = c.2 ∧
      ops.initialise c.1 c.2.length (((query.getD s).length + 1 - m : Nat) : Int) ((s.length + 1 - m : Nat) : Int) = .ok c'.1) consumers cons1)
    (order : List Int) (hord : order = shuffle (batchDiagonals query.isNone ((query.getD s).length + 1 - m) (s.length + 1 - m)
      (bufferOf m (query.map (·.length)) buffer)))
    (os : List Anytime.Op) (hc : AreBatchCalls m (query.getD s).length s.length order BSt.init us os)
    (hf : ∀ vs : List (BOp × Table K), vs.map Prod.fst = us →
      (∀ x ∈ vs, OpTable m gens.length (frameRel π (gens.map (·.2)) RelD) (frameRel π (gens.map (·.2)) RelC) s (query.getD s) x) →
      ∃ cons2, AllFed ops (fun ids => BSt.allTableEvents m query.isNone (bufferOf m (query.map (·.length)) buffer) order
        (query.getD s).length s.length ids BSt.init vs) cons1 cons2) :
    ∃ vs : List (BOp × Table K), vs.map Prod.fst = us ∧
      (∀ x ∈ vs, OpTable m gens.length (frameRel π (gens.map (·.2)) RelD) (frameRel π (gens.map (·.2)) RelC) s (query.getD s) x) ∧
      ∃ cons2, batchAll ops shuffle gens consumers needed m (frameRowsOf (fun ch x => enc (π ch x)) nDim s) (query.map (frameRowsOf (fun ch x => enc (π ch x)) nDim)) buffer os = .ok cons2 ∧
        AllFed ops (fun ids => BSt.allTableEvents m query.isNone (bufferOf m (query.map (·.length)) buffer) order
        (query.getD s).length s.length ids BSt.init vs) cons1 cons2 := by
  have hql : m ≤ (query.getD s).length := by
    cases query with
    | none => exact hs
    | some q' => exact hq q' rfl
  set chan := gens.map (·.2) with hchandef
  have hlen : chan.length = gens.length := by simp [hchandef]
  set b := bufferOf m (query.map (·.length)) buffer with hbdef
  have hb1 : -1 ≤ b := by
    rw [hbdef]; unfold bufferOf
    split
    · rename_i h; exact (hb (by simpa using h)).1
    · omega
  obtain ⟨bound, l1, l2⟩ := exists_list (fun i (g : (Int → List (Fl K) → Option (List (Fl K)) → Except PyErr G) × Nat) (x : G × Nat) => x.2 = g.2 ∧
      g.1 m ((s.map (π g.2)).map enc) (query.map fun q => (q.map (π g.2)).map enc) = .ok x.1 ∧
      Inv i x.1 ⟨s.map (π g.2), (query.getD s).map (π g.2), none⟩) gens (by
    intro i g hg
    obtain ⟨x, h1, h2⟩ := hprep i g hg
    exact ⟨(x, g.2), rfl, h1, h2⟩)
  -- the calculator before the first call
  obtain ⟨base, hbase, hbase'⟩ : ∃ base : Calc G C, Calc.init query.isNone m ((s.length + 1 - m : Nat) : Int)
      (((query.getD s).length + 1 - m : Nat) : Int) nDim buffer = .ok base ∧
      base = ⟨query.isNone, m, nDim, ((s.length + 1 - m : Nat) : Int), (((query.getD s).length + 1 - m : Nat) : Int), b, [], [], -1⟩ := by
    refine ⟨_, ?_, rfl⟩
    cases query with
    | none =>
      have hmem : buffer.getD ((m : Int) / 2) ∈ pyRange (-1) ((s.length + 1 - m : Nat) : Int) := by rw [mem_pyRange]; have := hb rfl; omega
      unfold Calc.init
      simp only [Option.isNone_none, if_true, if_pos hmem]
      rfl
    | some q' =>
      unfold Calc.init
      simp only [Option.isNone_some, Bool.false_eq_true, if_false]
      rfl
  set total : Int := if base.selfJoin then (base.numSeries - base.buffer - 1) * (base.numSeries - base.buffer - 1 + 1) / 2
            else base.numQuery * base.numSeries with htotal
  have e1 : ((s.length : Int) - m + 1) = ((s.length + 1 - m : Nat) : Int) := by omega
  have e2 : (((query.getD s).length : Int) - m + 1) = (((query.getD s).length + 1 - m : Nat) : Int) := by omega
  have hinit0 : Anytime.init shuffle m (frameRowsOf (fun ch x => enc (π ch x)) nDim s) (query.map (frameRowsOf (fun ch x => enc (π ch x)) nDim)) buffer = .ok
      { base := base, series := frameRowsOf (fun ch x => enc (π ch x)) nDim s, query := frameRowsOf (fun ch x => enc (π ch x)) nDim (query.getD s), order := shuffle (Anytime.diagonals base),
        total := total, next := 0, calculated := 0 } := by
    unfold Anytime.init
    cases query with
    | none =>
      simp only [Option.isNone_none, Option.getD_none] at hbase
      simp only [Option.map_none, Option.isNone_none, Option.getD_none, ne_eq, not_true, if_false, frameRows_cols (fun ch x => enc (π ch x)) nDim hn, e1, frameRows_length,
        hbase, bind, Except.bind, pure, Except.pure]
      rfl
    | some q' =>
      simp only [Option.isNone_some, Option.getD_some] at hbase e2
      simp only [Option.map_some, Option.isNone_some, Option.getD_some, ne_eq, not_true, if_false, frameRows_cols (fun ch x => enc (π ch x)) nDim hn, e1, e2, frameRows_length,
        hbase, bind, Except.bind, pure, Except.pure]
      rfl
  have hordb : shuffle (Anytime.diagonals base) = order := by
    rw [hord]
    congr 1
    rw [hbase']
    unfold Anytime.diagonals batchDiagonals
    split
    · rfl
    · dsimp only; congr 1; omega
  rw [hordb] at hinit0
  obtain ⟨v0, -, -, -, -⟩ := C20_init_valid shuffle hsh m _ _ buffer _ hinit0 (by rw [hbase']; simp only; omega) (by rw [hbase']; simp only; omega)
  have s3 := anyAddGenerators_ok (C := C) gens bound m (fun ch => (s.map (π ch)).map enc) (fun ch => ((query.getD s).map (π ch)).map enc)
    { base := base, series := frameRowsOf (fun ch x => enc (π ch x)) nDim s, query := frameRowsOf (fun ch x => enc (π ch x)) nDim (query.getD s), order := order, total := total, next := 0, calculated := 0 }
    (by rw [hbase']) (by
      rw [forall₂_iff_getElem?]
      refine ⟨l1, fun i g x hg hx => ?_⟩
      obtain ⟨a1, a2, a3⟩ := l2 i g x hg hx
      have hc := hchan g (List.mem_of_getElem? hg)
      refine ⟨a1, by rw [hbase']; exact hc, by rw [frameRows_get _ nDim s _ hc, List.map_map]; rfl, by rw [frameRows_get _ nDim _ _ hc, List.map_map]; rfl, ?_⟩
      rw [← a2, hbase']
      cases query <;> rfl)
  have s4 := anyAddConsumers_ok ops consumers cons1
    { base := { base with gens := base.gens ++ bound }, series := frameRowsOf (fun ch x => enc (π ch x)) nDim s, query := frameRowsOf (fun ch x => enc (π ch x)) nDim (query.getD s), order := order, total := total, next := 0, calculated := 0 }
    (by rw [hbase']; exact hinit)
  have hcids : cons1.map Prod.snd = consumers.map Prod.snd := by
    clear hf s4 hneed hids
    induction hinit with
    | nil => rfl
    | cons h _ ih => simp [h.1, ih]
  have hmemids : ∀ (x : List Nat), (∃ c ∈ cons1, c.2 = x) ↔ ∃ c ∈ consumers, c.2 = x := by
    intro x
    have e : ∀ l : List (C × List Nat), (∃ c ∈ l, c.2 = x) ↔ x ∈ l.map Prod.snd := by intro l; simp
    rw [e, e, hcids]
  have hneed1 : needed.Nodup ∧ ∀ id, id ∈ needed ↔ ∃ c ∈ cons1, id ∈ c.2 := by
    refine ⟨hneed.1, fun id => ?_⟩
    rw [hneed.2]
    constructor
    · rintro ⟨c, h1, h2⟩
      obtain ⟨c', h3, h4⟩ := (hmemids c.2).mpr ⟨c, h1, rfl⟩
      exact ⟨c', h3, by rw [h4]; exact h2⟩
    · rintro ⟨c, h1, h2⟩
      obtain ⟨c', h3, h4⟩ := (hmemids c.2).mp ⟨c, h1, rfl⟩
      exact ⟨c', h3, by rw [h4]; exact h2⟩
  obtain ⟨vs, v1, v2, st', r1, r2⟩ := batch_run (ops := ops) (m := m) (N := s.length) (M := query.map (·.length)) (D := D) (RelD := RelD) (RelC := RelC) (Ok := Ok) (Inv := Inv) (π := π) (chan := chan)
    (s := s) (q := query.getD s) (selfJoin := query.isNone) (b := b) (order := order) (needed := needed)
    (fun i hi => H i (hlen ▸ hi)) hreflD hreflC hm0 hs hql hb1 (by intro h; rw [Option.isNone_iff_eq_none.mp h]; rfl)
    (by
      intro i ch hch
      rw [hchandef, List.getElem?_map] at hch
      obtain ⟨g, hg, rfl⟩ := Option.map_eq_some_iff.mp hch
      exact hokd i g hg) us
    (by
      intro h i ch hch
      rw [hchandef, List.getElem?_map] at hch
      obtain ⟨g, hg, rfl⟩ := Option.map_eq_some_iff.mp hch
      exact hokc h i g hg) os
    { base := { base with gens := base.gens ++ bound, cons := base.cons ++ cons1 }, series := frameRowsOf (fun ch x => enc (π ch x)) nDim s, query := frameRowsOf (fun ch x => enc (π ch x)) nDim (query.getD s), order := order,
      total := total, next := 0, calculated := 0 } BSt.init
    (by
      have hg0 : base.gens = [] := by rw [hbase']
      have hc0 : base.cons = [] := by rw [hbase']
      refine ⟨?_, ?_, ?_, ?_, by rw [hbase'], by rw [hbase'], by rw [hbase'], by rw [hbase'], rfl, rfl, ?_, by simp [BSt.init]⟩
      · simp only [hg0, List.nil_append]; exact l1.trans hlen.symm
      · intro i ch hch
        rw [hchandef, List.getElem?_map] at hch
        obtain ⟨g, hg, rfl⟩ := Option.map_eq_some_iff.mp hch
        have hi : i < bound.length := by rw [l1]; exact (List.getElem?_eq_some_iff.mp hg).1
        obtain ⟨a1, a2, a3⟩ := l2 i g _ hg (List.getElem?_eq_getElem hi)
        refine ⟨bound[i].1, none, ?_, a3, by simp⟩
        simp only [hg0, List.nil_append]
        rw [List.getElem?_eq_getElem hi]
        congr 1
        exact Prod.ext rfl a1
      · exact ⟨⟨hneed1.1, by simp only [hc0, List.nil_append]; exact hneed1.2⟩, v0.order, v0.next, v0.calculated, v0.total, v0.pos, v0.rows, v0.cols⟩
      · intro c hc' id hid
        simp only [hc0, List.nil_append] at hc'
        obtain ⟨c', h3, h4⟩ := (hmemids c.2).mp ⟨c, hc', rfl⟩
        rw [hlen]
        exact hids c' h3 id (by rw [h4]; exact hid)
      · rw [hbase']; simp [BSt.init])
    hc (by
      have hc0 : base.cons = [] := by rw [hbase']
      simp only [hc0, List.nil_append, hlen]; exact hf)
  rw [hlen] at v2
  have hc0 : base.cons = [] := by rw [hbase']
  simp only [hc0, List.nil_append] at r2
  refine ⟨vs, v1, v2, st'.base.cons, ?_, r2⟩
  unfold batchAll
  simp only [bind, Except.bind]
  rw [hinit0]
  simp only [s3, s4, r1]
  rfl

/-- With the distances themselves on the diagonals the events are those of `BSt.allEventsOf`. -/
theorem allTableEvents_eq (m : Nat) (selfJoin : Bool) (b : Int) (order : List Int) (E : Nat → List α → List α → Fl K) (s q : List α) (n : Nat)
    (hord : ∀ d ∈ order, d + m ≤ s.length ∧ -d + m ≤ q.length) (RelC : Nat → List α → List α → Fl K → Prop) (ids : List Nat) (hids : ∀ id ∈ ids, id < n)
    (vs : List (BOp × Table K)) (hv : ∀ x ∈ vs, OpTable m n (fun id w x v => v = E id w x) RelC s q x) : ∀ u : BSt,
      BSt.allTableEvents m selfJoin b order q.length s.length ids u vs = BSt.allEventsOf m selfJoin b order E s q ids u
        (vs.map fun x => (x.1, match x.1 with | .diagonals _ => fun id r c => E id (win m s c) (win m q r) | .columns _ _ => x.2)) := by
  induction vs with
  | nil => intro u; rfl
  | cons x vs ih =>
    intro u
    rw [List.map_cons, BSt.allTableEvents, BSt.allEventsOf, ih (fun y hy => hv y (by simp [hy]))]
    congr 1
    have hx := hv x (by simp)
    obtain ⟨op, V⟩ := x
    cases op with
    | columns a c => rfl
    | diagonals k =>
      simp only [BSt.tableEvents, BSt.eventsOf, BSt.events]
      apply List.flatMap_congr
      intro d hd
      have hd' := hord d (List.mem_of_mem_take (List.mem_of_mem_drop hd))
      have e : (ids.map fun id => tableDiag V m q.length s.length id d) = ids.map fun id => diagValues (E id) m s q d := by
        apply List.map_congr_left
        intro id hid
        unfold tableDiag diagValues
        apply List.map_congr_left
        intro k hk
        rw [List.mem_range] at hk
        unfold diagEntries at hk
        exact hx id (hids id hid) _ _ (by omega) (by omega)
      rw [e]

theorem batchAll_gen {enc : E → Fl K} {ops : Ops G C K} (shuffle : List Int → List Int) (hsh : ∀ l, (shuffle l).Perm l) {m : Nat} {D : Nat → List E → List E → Fl K}
    {Rel : Nat → Fl K → Fl K → Prop}
    {Ok : Nat → GSt E → GOp E → Prop} {Inv : Nat → G → GSt E → Prop} {π : Nat → α → E} {nDim : Nat}
    (gens : List ((Int → List (Fl K) → Option (List (Fl K)) → Except PyErr G) × Nat)) (s : List α) (query : Option (List α))
    (H : ∀ i < gens.length, NearServes enc ops.gen m s.length (query.map (·.length)) (D i) (Rel i) (Ok i) (Inv i))
    (hrefl : ∀ i a b, Rel i (D i a b) (D i a b)) (hm0 : 0 < m) (hn : 0 < nDim)
    (hs : m ≤ s.length) (hq : ∀ q, query = some q → m ≤ q.length) (hchan : ∀ g ∈ gens, g.2 < nDim)
    (hprep : ∀ (i : Nat) g, gens[i]? = some g → ∃ x, g.1 m ((s.map (π g.2)).map enc) (query.map fun q => (q.map (π g.2)).map enc) = .ok x ∧
      Inv i x ⟨s.map (π g.2), (query.getD s).map (π g.2), none⟩)
    (needed : List Nat) (buffer : Option Int) (hb : query = none → -1 ≤ buffer.getD (m / 2) ∧ buffer.getD (m / 2) < ((s.length + 1 - m : Nat) : Int))
    (hokd : ∀ (i : Nat) g, gens[i]? = some g → ∀ (l : Option (Int × Bool)) (d : Int),
      (GSt.mk (s.map (π g.2)) ((query.getD s).map (π g.2)) l).Valid m (query.map (·.length)) (.diag d) →
      Ok i ⟨s.map (π g.2), (query.getD s).map (π g.2), l⟩ (.diag d))
    (us : List BOp)
    (hokc : (∃ a c, a < c ∧ .columns a c ∈ us) → ∀ (i : Nat) g, gens[i]? = some g → ∀ (l : Option (Int × Bool)) (c : Nat), c + m ≤ s.length →
      (GSt.mk (s.map (π g.2)) ((query.getD s).map (π g.2)) l).Safe (.column c) → Ok i ⟨s.map (π g.2), (query.getD s).map (π g.2), l⟩ (.column c))
    (consumers cons1 : List (C × List Nat)) (hneed : needed.Nodup ∧ ∀ id, id ∈ needed ↔ ∃ c ∈ consumers, id ∈ c.2)
    (hids : ∀ c ∈ consumers, ∀ id ∈ c.2, id < gens.length)
    (hinit : List.Forall₂ (fun c c' => c'.2 = c.2 ∧
      ops.initialise c.1 c.2.length (((query.getD s).length + 1 - m : Nat) : Int) ((s.length + 1 - m : Nat) : Int) = .ok c'.1) consumers cons1)
    (order : List Int) (hord : order = shuffle (batchDiagonals query.isNone ((query.getD s).length + 1 - m) (s.length + 1 - m)
      (bufferOf m (query.map (·.length)) buffer)))
    (os : List Anytime.Op) (hc : AreBatchCalls m (query.getD s).length s.length order BSt.init us os)
    (hf : ∀ vs : List (BOp × Table K), vs.map Prod.fst = us →
      (∀ x ∈ vs, NearTable m gens.length Rel (frameDist π (gens.map (·.2)) D) s (query.getD s) x.2) →
      ∃ cons2, AllFed ops (fun ids => BSt.allEventsOf m query.isNone (bufferOf m (query.map (·.length)) buffer) order (frameDist π (gens.map (·.2)) D) s
        (query.getD s) ids BSt.init vs) cons1 cons2) :
    ∃ vs : List (BOp × Table K), vs.map Prod.fst = us ∧
      (∀ x ∈ vs, NearTable m gens.length Rel (frameDist π (gens.map (·.2)) D) s (query.getD s) x.2) ∧
      ∃ cons2, batchAll ops shuffle gens consumers needed m (frameRowsOf (fun ch x => enc (π ch x)) nDim s) (query.map (frameRowsOf (fun ch x => enc (π ch x)) nDim)) buffer os = .ok cons2 ∧
        AllFed ops (fun ids => BSt.allEventsOf m query.isNone (bufferOf m (query.map (·.length)) buffer) order (frameDist π (gens.map (·.2)) D) s
          (query.getD s) ids BSt.init vs) cons1 cons2 := by
  have hql : m ≤ (query.getD s).length := by
    cases query with
    | none => exact hs
    | some q' => exact hq q' rfl
  have hordb : ∀ d ∈ order, d + m ≤ s.length ∧ -d + m ≤ (query.getD s).length := by
    intro d hd
    rw [hord] at hd
    have hd := (hsh _).mem_iff.mp hd
    unfold batchDiagonals at hd
    split at hd
    · rename_i h
      rw [Option.isNone_iff_eq_none] at h
      have := hb h
      subst h
      simp only [bufferOf, Option.map_none, Option.isNone_none, if_true, Option.getD_none] at hd ⊢
      rw [mem_pyRange] at hd
      omega
    · rw [mem_pyRange] at hd
      omega
  have hcids : cons1.map Prod.snd = consumers.map Prod.snd := by
    clear hf hneed hids
    induction hinit with
    | nil => rfl
    | cons h _ ih => simp [h.1, ih]
  have hids1 : ∀ c ∈ cons1, ∀ id ∈ c.2, id < gens.length := by
    intro c hc' id hid
    have : c.2 ∈ cons1.map Prod.snd := List.mem_map_of_mem hc'
    rw [hcids] at this
    obtain ⟨c', h1, h2⟩ := List.mem_map.mp this
    exact hids c' h1 id (h2 ▸ hid)
  set F := frameDist π (gens.map (·.2)) D with hF
  -- exact tables for the diagonals
  have hconv : ∀ vs : List (BOp × Table K), vs.map Prod.fst = us →
      (∀ x ∈ vs, OpTable m gens.length (frameRel π (gens.map (·.2)) fun i w x v => v = D i w x) (frameRel π (gens.map (·.2)) fun i w x v => Rel i (D i w x) v) s
        (query.getD s) x) → ∃ vs' : List (BOp × Table K), vs'.map Prod.fst = us ∧ (∀ x ∈ vs', NearTable m gens.length Rel F s (query.getD s) x.2) ∧
        ∀ c ∈ cons1, BSt.allTableEvents m query.isNone (bufferOf m (query.map (·.length)) buffer) order (query.getD s).length s.length c.2 BSt.init vs =
          BSt.allEventsOf m query.isNone (bufferOf m (query.map (·.length)) buffer) order F s (query.getD s) c.2 BSt.init vs' := by
    intro vs h1 h2
    refine ⟨vs.map fun x => (x.1, match x.1 with | .diagonals _ => fun id r c => F id (win m s c) (win m (query.getD s) r) | .columns _ _ => x.2), ?_, ?_, ?_⟩
    · rw [List.map_map, ← h1]; rfl
    · intro x hx
      obtain ⟨⟨op, V⟩, hy, rfl⟩ := List.mem_map.mp hx
      cases op with
      | diagonals n => exact fun _ _ _ _ _ _ => hrefl _ _ _
      | columns a c => exact h2 _ hy
    · intro c hc'
      exact allTableEvents_eq m query.isNone _ order F s (query.getD s) gens.length hordb _ c.2 (hids1 c hc') vs h2 BSt.init
  obtain ⟨vs, v1, v2, cons2, r1, r2⟩ := batchAll_win shuffle hsh gens s query (fun i hi => (H i hi).windows) (fun _ _ _ => rfl) hrefl hm0 hn hs hq hchan hprep needed
    buffer hb hokd us hokc consumers cons1 hneed hids hinit order hord os hc (by
      intro vs h1 h2
      obtain ⟨vs', a1, a2, a3⟩ := hconv vs h1 h2
      obtain ⟨cons2, hf⟩ := hf vs' a1 a2
      exact ⟨cons2, hf.congr fun c hc' => (a3 c hc').symm⟩)
  obtain ⟨vs', a1, a2, a3⟩ := hconv vs v1 v2
  exact ⟨vs', a1, a2, cons2, r1, r2.congr fun c hc' => a3 c hc'⟩

theorem batchAll_near {ops : Ops G C K} (shuffle : List Int → List Int) (hsh : ∀ l, (shuffle l).Perm l) {m : Nat} {D : Nat → List K → List K → Fl K}
    {Rel : Nat → Fl K → Fl K → Prop}
    {Ok : Nat → GSt K → GOp K → Prop} {Inv : Nat → G → GSt K → Prop} {π : Nat → α → K} {nDim : Nat}
    (gens : List ((Int → List (Fl K) → Option (List (Fl K)) → Except PyErr G) × Nat)) (s : List α) (query : Option (List α))
    (H : ∀ i < gens.length, NearServes .fin ops.gen m s.length (query.map (·.length)) (D i) (Rel i) (Ok i) (Inv i))
    (hrefl : ∀ i a b, Rel i (D i a b) (D i a b)) (hm0 : 0 < m) (hn : 0 < nDim)
    (hs : m ≤ s.length) (hq : ∀ q, query = some q → m ≤ q.length) (hchan : ∀ g ∈ gens, g.2 < nDim)
    (hprep : ∀ (i : Nat) g, gens[i]? = some g → ∃ x, g.1 m ((s.map (π g.2)).map .fin) (query.map fun q => (q.map (π g.2)).map .fin) = .ok x ∧
      Inv i x ⟨s.map (π g.2), (query.getD s).map (π g.2), none⟩)
    (needed : List Nat) (buffer : Option Int) (hb : query = none → -1 ≤ buffer.getD (m / 2) ∧ buffer.getD (m / 2) < ((s.length + 1 - m : Nat) : Int))
    (hokd : ∀ (i : Nat) g, gens[i]? = some g → ∀ (l : Option (Int × Bool)) (d : Int),
      (GSt.mk (s.map (π g.2)) ((query.getD s).map (π g.2)) l).Valid m (query.map (·.length)) (.diag d) →
      Ok i ⟨s.map (π g.2), (query.getD s).map (π g.2), l⟩ (.diag d))
    (us : List BOp)
    (hokc : (∃ a c, a < c ∧ .columns a c ∈ us) → ∀ (i : Nat) g, gens[i]? = some g → ∀ (l : Option (Int × Bool)) (c : Nat), c + m ≤ s.length →
      (GSt.mk (s.map (π g.2)) ((query.getD s).map (π g.2)) l).Safe (.column c) → Ok i ⟨s.map (π g.2), (query.getD s).map (π g.2), l⟩ (.column c))
    (consumers cons1 : List (C × List Nat)) (hneed : needed.Nodup ∧ ∀ id, id ∈ needed ↔ ∃ c ∈ consumers, id ∈ c.2)
    (hids : ∀ c ∈ consumers, ∀ id ∈ c.2, id < gens.length)
    (hinit : List.Forall₂ (fun c c' => c'.2 = c.2 ∧
      ops.initialise c.1 c.2.length (((query.getD s).length + 1 - m : Nat) : Int) ((s.length + 1 - m : Nat) : Int) = .ok c'.1) consumers cons1)
    (order : List Int) (hord : order = shuffle (batchDiagonals query.isNone ((query.getD s).length + 1 - m) (s.length + 1 - m)
      (bufferOf m (query.map (·.length)) buffer)))
    (os : List Anytime.Op) (hc : AreBatchCalls m (query.getD s).length s.length order BSt.init us os)
    (hf : ∀ vs : List (BOp × Table K), vs.map Prod.fst = us →
      (∀ x ∈ vs, NearTable m gens.length Rel (frameDist π (gens.map (·.2)) D) s (query.getD s) x.2) →
      ∃ cons2, AllFed ops (fun ids => BSt.allEventsOf m query.isNone (bufferOf m (query.map (·.length)) buffer) order (frameDist π (gens.map (·.2)) D) s
        (query.getD s) ids BSt.init vs) cons1 cons2) :
    ∃ vs : List (BOp × Table K), vs.map Prod.fst = us ∧
      (∀ x ∈ vs, NearTable m gens.length Rel (frameDist π (gens.map (·.2)) D) s (query.getD s) x.2) ∧
      ∃ cons2, batchAll ops shuffle gens consumers needed m (frameRows π nDim s) (query.map (frameRows π nDim)) buffer os = .ok cons2 ∧
        AllFed ops (fun ids => BSt.allEventsOf m query.isNone (bufferOf m (query.map (·.length)) buffer) order (frameDist π (gens.map (·.2)) D) s
          (query.getD s) ids BSt.init vs) cons1 cons2 :=
  batchAll_gen shuffle hsh gens s query H hrefl hm0 hn hs hq hchan hprep needed buffer hb hokd us hokc consumers cons1 hneed hids hinit order hord os hc hf

theorem batchAll_ok {ops : Ops G C K} (shuffle : List Int → List Int) (hsh : ∀ l, (shuffle l).Perm l) {m : Nat} {D : Nat → List K → List K → Fl K}
    {Ok : Nat → GSt K → GOp K → Prop} {Inv : Nat → G → GSt K → Prop} {π : Nat → α → K} {nDim : Nat}
    (gens : List ((Int → List (Fl K) → Option (List (Fl K)) → Except PyErr G) × Nat)) (s : List α) (query : Option (List α))
    (H : ∀ i < gens.length, Serves ops.gen m s.length (query.map (·.length)) (D i) (Ok i) (Inv i)) (hm0 : 0 < m) (hn : 0 < nDim)
    (hs : m ≤ s.length) (hq : ∀ q, query = some q → m ≤ q.length) (hchan : ∀ g ∈ gens, g.2 < nDim)
    (hprep : ∀ (i : Nat) g, gens[i]? = some g → ∃ x, g.1 m ((s.map (π g.2)).map .fin) (query.map fun q => (q.map (π g.2)).map .fin) = .ok x ∧
      Inv i x ⟨s.map (π g.2), (query.getD s).map (π g.2), none⟩)
    (needed : List Nat) (buffer : Option Int) (hb : query = none → -1 ≤ buffer.getD (m / 2) ∧ buffer.getD (m / 2) < ((s.length + 1 - m : Nat) : Int))
    (hokd : ∀ (i : Nat) g, gens[i]? = some g → ∀ (l : Option (Int × Bool)) (d : Int),
      (GSt.mk (s.map (π g.2)) ((query.getD s).map (π g.2)) l).Valid m (query.map (·.length)) (.diag d) →
      Ok i ⟨s.map (π g.2), (query.getD s).map (π g.2), l⟩ (.diag d))
    (us : List BOp)
    (hokc : (∃ a c, a < c ∧ .columns a c ∈ us) → ∀ (i : Nat) g, gens[i]? = some g → ∀ (l : Option (Int × Bool)) (c : Nat), c + m ≤ s.length →
      (GSt.mk (s.map (π g.2)) ((query.getD s).map (π g.2)) l).Safe (.column c) → Ok i ⟨s.map (π g.2), (query.getD s).map (π g.2), l⟩ (.column c))
    (consumers cons1 cons2 : List (C × List Nat)) (hneed : needed.Nodup ∧ ∀ id, id ∈ needed ↔ ∃ c ∈ consumers, id ∈ c.2)
    (hids : ∀ c ∈ consumers, ∀ id ∈ c.2, id < gens.length)
    (hinit : List.Forall₂ (fun c c' => c'.2 = c.2 ∧
      ops.initialise c.1 c.2.length (((query.getD s).length + 1 - m : Nat) : Int) ((s.length + 1 - m : Nat) : Int) = .ok c'.1) consumers cons1)
    (order : List Int) (hord : order = shuffle (batchDiagonals query.isNone ((query.getD s).length + 1 - m) (s.length + 1 - m)
      (bufferOf m (query.map (·.length)) buffer)))
    (os : List Anytime.Op) (hc : AreBatchCalls m (query.getD s).length s.length order BSt.init us os)
    (hf : AllFed ops (fun ids => BSt.allEvents m query.isNone (bufferOf m (query.map (·.length)) buffer) order (frameDist π (gens.map (·.2)) D) s (query.getD s) ids
      BSt.init us) cons1 cons2) :
    batchAll ops shuffle gens consumers needed m (frameRows π nDim s) (query.map (frameRows π nDim)) buffer os = .ok cons2 := by
  have hcids : cons1.map Prod.snd = consumers.map Prod.snd := by
    clear hf hneed hids
    induction hinit with
    | nil => rfl
    | cons h _ ih => simp [h.1, ih]
  have hids1 : ∀ c ∈ cons1, ∀ id ∈ c.2, id < gens.length := by
    intro c hc' id hid
    have : c.2 ∈ cons1.map Prod.snd := List.mem_map_of_mem hc'
    rw [hcids] at this
    obtain ⟨c', h1, h2⟩ := List.mem_map.mp this
    exact hids c' h1 id (h2 ▸ hid)
  have hex : ∀ vs : List (BOp × Table K), vs.map Prod.fst = us →
      (∀ x ∈ vs, NearTable m gens.length (fun _ => Eq) (frameDist π (gens.map (·.2)) D) s (query.getD s) x.2) → ∀ ids, (∀ id ∈ ids, id < gens.length) →
      BSt.allEventsOf m query.isNone (bufferOf m (query.map (·.length)) buffer) order (frameDist π (gens.map (·.2)) D) s (query.getD s) ids BSt.init vs =
        BSt.allEvents m query.isNone (bufferOf m (query.map (·.length)) buffer) order (frameDist π (gens.map (·.2)) D) s (query.getD s) ids BSt.init us := by
    intro vs h1 h2 ids h3
    rw [batchEventsOf_exact ids gens.length h3 _ hs vs BSt.init (by rw [h1]; exact hc.columns_fit hs) h2, h1]
  obtain ⟨vs, h1, h2, cons2', h3, h4⟩ := batchAll_near shuffle hsh gens s query (fun i hi => (H i hi).near) (fun _ _ _ => rfl) hm0 hn hs hq hchan hprep needed
    buffer hb hokd us hokc consumers cons1 hneed hids hinit order hord os hc
    (fun vs h1 h2 => ⟨cons2, hf.congr fun c hc => (hex vs h1 h2 c.2 (hids1 c hc)).symm⟩)
  rw [h3, (h4.congr fun c hc => hex vs h1 h2 c.2 (hids1 c hc)).unique hf]

end Verif
