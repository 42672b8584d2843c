import Verif.Lemmas.SessionsBatch

/-!
# C90: generators and consumers added at any time

Sessions with an `AnytimeCalculator`: any order of `add_generator`, `add_consumer` (also with a consumer that was added before), `calculate_diagonals` and
`calculate_columns`.
-/

namespace Verif
open Spec
variable {α C : Type}

/-- A new calculator. -/
theorem Anytime.init_inv {G : Type} (shuffle : List Int → List Int) (hsh : ∀ l, (shuffle l).Perm l) (π : Nat → α → ℝ) (m : Nat) (s : List α) (query : Option (List α))
    (nDim : Nat) (buffer : Option Int) (kinds : List (GenKind × Nat)) (ha : BatchArgs m s query nDim buffer kinds [] []) (Inv : Nat → G → GSt ℝ → Prop) :
    ∃ st : Anytime G C ℝ, Anytime.init shuffle m (frameRows π nDim s) (query.map (frameRows π nDim)) buffer = .ok st ∧
      BatchInv Inv π [] m s (query.getD s) query.isNone (batchBuffer m query buffer) (batchOrder shuffle m s query buffer) [] st BSt.init ∧ st.base.cons = [] ∧
      st.series = frameRows π nDim s ∧ st.query = frameRows π nDim (query.getD s) ∧ st.base.m = m ∧ st.base.nDim = nDim := by
  have hs := ha.series
  have hql : m ≤ (query.getD s).length := by
    cases query with
    | none => exact hs
    | some q' => exact ha.queryLen q' rfl
  have hn := ha.dims
  obtain ⟨base, hbase, hbase'⟩ : ∃ base : Calc G C, Calc.init query.isNone m ((s.length + 1 - m : Nat) : Int)
      (((query.getD s).length + 1 - m : Nat) : Int) nDim buffer = .ok base ∧
      base = ⟨query.isNone, m, nDim, ((s.length + 1 - m : Nat) : Int), (((query.getD s).length + 1 - m : Nat) : Int), batchBuffer m query buffer, [], [], -1⟩ := by
    refine ⟨_, ?_, rfl⟩
    cases query with
    | none =>
      have hmem : buffer.getD ((m : Int) / 2) ∈ pyRange (-1) ((s.length + 1 - m : Nat) : Int) := by rw [mem_pyRange]; have := ha.bufferLen rfl; omega
      unfold Calc.init
      simp only [Option.isNone_none, if_true, if_pos hmem]
      rfl
    | some q' =>
      unfold Calc.init
      simp only [Option.isNone_some, Bool.false_eq_true, if_false]
      rfl
  set total : Int := if base.selfJoin then (base.numSeries - base.buffer - 1) * (base.numSeries - base.buffer - 1 + 1) / 2
            else base.numQuery * base.numSeries with htotal
  have e1 : ((s.length : Int) - m + 1) = ((s.length + 1 - m : Nat) : Int) := by omega
  have e2 : (((query.getD s).length : Int) - m + 1) = (((query.getD s).length + 1 - m : Nat) : Int) := by omega
  have hinit0 : Anytime.init shuffle m (frameRows π nDim s) (query.map (frameRows π nDim)) buffer = .ok
      { base := base, series := frameRows π nDim s, query := frameRows π nDim (query.getD s), order := shuffle (Anytime.diagonals base),
        total := total, next := 0, calculated := 0 } := by
    unfold Anytime.init
    cases query with
    | none =>
      simp only [Option.isNone_none, Option.getD_none] at hbase
      simp only [Option.map_none, Option.isNone_none, Option.getD_none, ne_eq, not_true, if_false, frameRows_cols _ nDim hn, e1, frameRows_length,
        hbase, bind, Except.bind, pure, Except.pure]
      rfl
    | some q' =>
      simp only [Option.isNone_some, Option.getD_some] at hbase e2
      simp only [Option.map_some, Option.isNone_some, Option.getD_some, ne_eq, not_true, if_false, frameRows_cols _ nDim hn, e1, e2, frameRows_length,
        hbase, bind, Except.bind, pure, Except.pure]
      rfl
  have hordb : shuffle (Anytime.diagonals base) = batchOrder shuffle m s query buffer := by
    unfold batchOrder
    congr 1
    rw [hbase']
    unfold Anytime.diagonals batchDiagonals
    split
    · rfl
    · dsimp only; congr 1; omega
  rw [hordb] at hinit0
  obtain ⟨v0, -, -, -, -⟩ := C20_init_valid shuffle hsh m _ _ buffer _ hinit0 (by rw [hbase']; simp only; omega) (by rw [hbase']; simp only; omega)
  have hc0 : base.cons = [] := by rw [hbase']
  have hg0 : base.gens = [] := by rw [hbase']
  refine ⟨_, hinit0, ⟨by simp only [hg0]; rfl, by simp, ⟨⟨List.nodup_nil, by simp [hc0]⟩, v0.order, v0.next, v0.calculated, v0.total, v0.pos, v0.rows, v0.cols⟩,
    by simp [hc0], by rw [hbase'], by rw [hbase'], by rw [hbase'], by rw [hbase'], rfl, rfl, by rw [hbase']; rfl, by simp [BSt.init]⟩, hc0, rfl, rfl, by rw [hbase'],
    by rw [hbase']⟩

/-- What the consumers of an `AnytimeCalculator` live through. -/
noncomputable def batchLives (shuffle : List Int → List Int) (π : Nat → α → ℝ) (m : Nat) (s : List α) (query : Option (List α)) (buffer : Option Int)
    (as : List (SAct (GenKind × Nat) C BOp)) : List (C × Life ℝ) :=
  lives BSt.step (fun u op ids => u.events m query.isNone (batchBuffer m query buffer) (batchOrder shuffle m s query buffer)
    (streamDist π m (SAct.gens as)) s (query.getD s) ids op) BSt.init [] as

/-- **C90.** A session with an `AnytimeCalculator`: generators and consumers are added at any time, also consumers that were added before, and
`calculate_diagonals` and `calculate_columns` are called in between. No act raises, and every consumer is in the state that its life leaves it in: initialised
whenever it is added, for the generators it is added for, and given what is calculated from then on, by whichever generators were added by then, no matter which
other generators and consumers there are. Partial for Euclidean generators when columns are calculated: see `C66_euclidean_nan`. -/
theorem C90_session_partial (memE : Nat → List (Fl ℝ)) (hmemE : ∀ n, (memE n).length = n) (memZ : ZN.Mem) (hmemZ : memZ.Ok)
    (ops : Ops (ColCache ℝ ⊕ ZN) C ℝ) (hops : ops.gen = GenKind.ops memE memZ) (shuffle : List Int → List Int) (hsh : ∀ l, (shuffle l).Perm l)
    (π : Nat → α → ℝ) (m : Nat) (s : List α) (query : Option (List α)) (nDim : Nat) (buffer : Option Int)
    (as : List (SAct (GenKind × Nat) C BOp)) (bs : List (Act GenKind C Anytime.Op)) (ha : BatchArgs m s query nDim buffer (SAct.gens as) [] [])
    (hacts : AreActs BSt.step (IsBatchCall m (query.getD s).length s.length (batchOrder shuffle m s query buffer)) (fun _ => True) 0 [] BSt.init as bs)
    (hgood : (∃ a c, a < c ∧ .columns a c ∈ SAct.calls as) → ∀ g ∈ SAct.gens as, g.1.Good m (s.map (π g.2)) ((query.getD s).map (π g.2)))
    (halive : ∀ x ∈ batchLives shuffle π m s query buffer as, ∃ c',
      live ops (((query.getD s).length + 1 - m : Nat) : Int) ((s.length + 1 - m : Nat) : Int) x.1 x.2 = .ok c') :
    ∃ cons, batchSession ops (fun k => k.prepare memE memZ) shuffle m (frameRows π nDim s) (query.map (frameRows π nDim)) buffer bs = .ok cons ∧
      List.Forall₂ (fun x c => c.2 = x.2.ids ∧
        live ops (((query.getD s).length + 1 - m : Nat) : Int) ((s.length + 1 - m : Nat) : Int) x.1 x.2 = .ok c.1) (batchLives shuffle π m s query buffer as) cons := by
  have hm0 := ha.pos
  have hs := ha.series
  have hql : m ≤ (query.getD s).length := by
    cases query with
    | none => exact hs
    | some q' => exact ha.queryLen q' rfl
  have hb1 : -1 ≤ batchBuffer m query buffer := by
    cases query with
    | none => exact (ha.bufferLen rfl).1
    | some q' => exact le_rfl
  set kinds := SAct.gens as with hkinds
  set h : Int := (((query.getD s).length + 1 - m : Nat) : Int) with hh
  set w : Int := ((s.length + 1 - m : Nat) : Int) with hw
  set M : Option Nat := query.map (·.length) with hM
  set D : Nat → List ℝ → List ℝ → Fl ℝ := fun i => match kinds[i]? with
    | some k => k.1.dist m
    | none => fun _ _ => .nan with hD
  have hDk : ∀ i k, kinds[i]? = some k → D i = k.1.dist m := by
    intro i k h; simp [hD, h]
  set Inv : Nat → ColCache ℝ ⊕ ZN → GSt ℝ → Prop := fun i x st => ∀ k, kinds[i]? = some k → k.1.Holds m s.length M x st with hInv
  set Ok : Nat → GSt ℝ → GOp ℝ → Prop := fun i st op => ∀ k, kinds[i]? = some k → k.1.CallOk m M st op with hOk
  set ev : BSt → BOp → List Nat → List (CEvent ℝ) := fun u op ids => u.events m query.isNone (batchBuffer m query buffer) (batchOrder shuffle m s query buffer)
    (streamDist π m kinds) s (query.getD s) ids op with hev
  have hser : ∀ i < kinds.length, Serves ops.gen m s.length M (D i) (Ok i) (Inv i) := by
    intro i hi
    obtain ⟨k, hk⟩ : ∃ k, kinds[i]? = some k := ⟨_, List.getElem?_eq_getElem hi⟩
    rw [hDk i k hk, hops]
    have h1 : Ok i = k.1.CallOk m M := by
      funext st op
      exact propext ⟨fun h => h k hk, fun h k' hk' => by rw [hk] at hk'; cases hk'; exact h⟩
    have h2 : Inv i = k.1.Holds m s.length M := by
      funext x st
      exact propext ⟨fun h => h k hk, fun h k' hk' => by rw [hk] at hk'; cases hk'; exact h⟩
    rw [h1, h2]
    exact GenKind.serves memE hmemE memZ hmemZ m s.length M k.1
  have main : ∀ (as : List (SAct (GenKind × Nat) C BOp)) (bs : List (Act GenKind C Anytime.Op)) (gs : List (GenKind × Nat)) (ls : List (C × Life ℝ)) (u : BSt)
      (st : Anytime (ColCache ℝ ⊕ ZN) C ℝ), kinds = gs ++ SAct.gens as →
      ((∃ a c, a < c ∧ .columns a c ∈ SAct.calls as) → ∀ g ∈ kinds, g.1.Good m (s.map (π g.2)) ((query.getD s).map (π g.2))) →
      BatchInv Inv π (gs.map (·.2)) m s (query.getD s) query.isNone (batchBuffer m query buffer) (batchOrder shuffle m s query buffer) [] st.bare u →
      (st.series = frameRows π nDim s ∧ st.query = frameRows π nDim (query.getD s) ∧ st.base.m = m ∧ st.base.nDim = nDim) →
      Lived ops h w ls st.base.cons → Alive ops h w (lives BSt.step ev u ls as) →
      AreActs BSt.step (IsBatchCall m (query.getD s).length s.length (batchOrder shuffle m s query buffer)) (fun _ => True) gs.length (ls.map fun x => x.2.ids) u as bs →
      ∃ st', Anytime.session ops (fun k => k.prepare memE memZ) bs st = .ok st' ∧ Lived ops h w (lives BSt.step ev u ls as) st'.base.cons := by
    intro as
    induction as with
    | nil =>
      intro bs gs ls u st _ _ _ _ hl _ hacts
      cases bs with
      | nil => exact ⟨st, rfl, hl⟩
      | cons b bs => exact hacts.elim
    | cons a as ih =>
      intro bs gs ls u st hk hgood hi hst hl hal hacts
      have hrow : st.base.numQuery = h := hi.rows
      have hcol : st.base.numSeries = w := hi.cols
      cases bs with
      | nil => cases a <;> exact hacts.elim
      | cons b bs =>
        cases a with
        | generator g =>
          cases b with
          | generator g' dim =>
            obtain ⟨-, rfl, rfl, hrest⟩ := hacts
            have hgk : kinds[gs.length]? = some g := by rw [hk]; simp [SAct.gens]
            have hgm : g ∈ kinds := List.mem_of_getElem? hgk
            have hch := ha.chan g hgm
            obtain ⟨x, h2, h3⟩ := GenKind.prepare_ok memE hmemE memZ hmemZ m hm0 (s.map (π g.2)) (query.map (·.map (π g.2))) (by simpa using hs)
              (by intro q' h; obtain ⟨q, e1, rfl⟩ := Option.map_eq_some_iff.mp h; simpa using ha.queryLen q e1) g.1
            have hadd : st.addGenerator (g.1.prepare memE memZ) (g.2 : Int) = .ok { st with base := { st.base with gens := st.base.gens ++ [(x, g.2)] } } := by
              unfold Anytime.addGenerator
              have h1 : ¬ ((g.2 : Int) < 0 ∨ (g.2 : Int) ≥ (st.base.nDim : Int)) := by rw [hst.2.2.2]; omega
              rw [if_neg h1, hst.1, hst.2.1, hst.2.2.1, frameRows_get _ nDim s g.2 hch, frameRows_get _ nDim _ g.2 hch, show st.base.selfJoin = query.isNone from hi.selfJoin]
              cases query with
              | none =>
                simp only [Option.map_none, List.map_map] at h2
                simp only [Option.isNone_none, if_true, bind, Except.bind, pure, Except.pure, Int.toNat_natCast]
                rw [show (fun x => Fl.fin (π g.2 x)) = Fl.fin ∘ π g.2 from rfl, h2]
              | some q' =>
                simp only [Option.map_some, List.map_map] at h2
                simp only [Option.isNone_some, Bool.false_eq_true, if_false, bind, Except.bind, pure, Except.pure, Int.toNat_natCast, Option.getD_some]
                rw [show (fun x => Fl.fin (π g.2 x)) = Fl.fin ∘ π g.2 from rfl, h2]
            have hbi : BatchInv Inv π ((gs ++ [g]).map (·.2)) m s (query.getD s) query.isNone (batchBuffer m query buffer) (batchOrder shuffle m s query buffer) []
                (Anytime.bare { st with base := { st.base with gens := st.base.gens ++ [(x, g.2)] } }) u := by
              have hlen : st.base.gens.length = gs.length := by rw [← List.length_map (f := fun x : GenKind × Nat => x.2)]; exact hi.genLen
              refine ⟨?_, ?_, ⟨⟨List.nodup_nil, by simp [Anytime.bare]⟩, hi.valid.order, hi.valid.next, hi.valid.calculated, hi.valid.total, hi.valid.pos, hi.valid.rows,
                hi.valid.cols⟩, by simp [Anytime.bare], hi.selfJoin, hi.cols, hi.rows, hi.buffer, hi.order, hi.next, hi.last, hi.colLe⟩
              · simp [Anytime.bare, hlen]
              · intro i ch hch'
                show ∃ g' last, (st.base.gens ++ [(x, g.2)])[i]? = some (g', ch) ∧ _
                rw [List.map_append] at hch'
                by_cases hlt : i < gs.length
                · rw [List.getElem?_append_left (by simpa using hlt)] at hch'
                  rw [List.getElem?_append_left (by rw [hlen]; exact hlt)]
                  exact hi.gen i ch hch'
                · have hi' : i = gs.length := by
                    have := (List.getElem?_eq_some_iff.mp hch').1
                    simp at this; omega
                  subst hi'
                  rw [List.getElem?_append_right (by simp)] at hch'
                  simp at hch'
                  subst hch'
                  refine ⟨x, none, ?_, ?_, by simp⟩
                  · rw [List.getElem?_append_right (by rw [hlen]), hlen]; simp
                  · intro k' hk'
                    rw [hgk] at hk'
                    cases hk'
                    rw [hM]
                    simpa [Option.map_map, Function.comp_def, apply_ite, Option.getD_map] using h3
            obtain ⟨st', r1, r2⟩ := ih bs (gs ++ [g]) ls u { st with base := { st.base with gens := st.base.gens ++ [(x, g.2)] } } (by rw [hk]; simp [SAct.gens])
              hgood hbi hst hl hal (by rw [List.length_append]; exact hrest)
            exact ⟨st', by rw [Anytime.session, Anytime.act, hadd]; exact r1, r2⟩
          | consumer => exact hacts.elim
          | again => exact hacts.elim
          | call => exact hacts.elim
        | consumer c ids =>
          cases b with
          | consumer c' ids' =>
            obtain ⟨rfl, rfl, hrest⟩ := hacts
            have hl' : Lived ops st.base.numQuery st.base.numSeries ls st.base.cons := by rw [hrow, hcol]; exact hl
            have hal' := Alive.before as u (ls ++ [(c', [(ids', [])])]) (by
              intro y hy
              rcases List.mem_append.mp hy with hy | hy
              · exact hl.ne y hy
              · rw [List.mem_singleton.mp hy]; simp) hal
            obtain ⟨cons', e1, e2⟩ := hl'.add c' ids' (by rw [hrow, hcol]; exact hal')
            rw [hrow, hcol] at e2
            obtain ⟨st', r1, r2⟩ := ih bs gs (ls ++ [(c', [(ids', [])])]) u { st with base := { st.base with cons := cons' } } hk hgood hi hst e2 hal
              (by simpa [Life.ids] using hrest)
            refine ⟨st', ?_, r2⟩
            rw [Anytime.session, Anytime.act, Anytime.addConsumer, e1]
            exact r1
          | generator => exact hacts.elim
          | again => exact hacts.elim
          | call => exact hacts.elim
        | again k ids =>
          cases b with
          | again k' ids' =>
            obtain ⟨rfl, rfl, hkl, hrest⟩ := hacts
            have hl' : Lived ops st.base.numQuery st.base.numSeries ls st.base.cons := by rw [hrow, hcol]; exact hl
            have hal' := Alive.before as u (ls.modify k' fun x => (x.1, x.2 ++ [(ids', [])]))
              (Spec.lives_ne BSt.step ev [.again (P := GenKind × Nat) k' ids'] u ls hl.ne) hal
            obtain ⟨cons', e1, e2⟩ := hl'.again k' (by simpa using hkl) ids' (by rw [hrow, hcol]; exact hal')
            rw [hrow, hcol] at e2
            obtain ⟨st', r1, r2⟩ := ih bs gs (ls.modify k' fun x => (x.1, x.2 ++ [(ids', [])])) u { st with base := { st.base with cons := cons' } } hk hgood hi hst e2 hal
              (by rw [Spec.ids_again]; exact hrest)
            refine ⟨st', ?_, r2⟩
            rw [Anytime.session, Anytime.act, e1]
            exact r1
          | generator => exact hacts.elim
          | consumer => exact hacts.elim
          | call => exact hacts.elim
        | call op =>
          cases b with
          | call needed o =>
            obtain ⟨hcall, hnd, hneed, hids, hrest⟩ := hacts
            have hids' : ∀ c ∈ st.base.cons, ∀ id ∈ c.2, id < (gs.map (·.2)).length := by
              intro c hc id hid
              rw [List.length_map]
              refine hids c.2 ?_ id hid
              rw [← hl.idss]
              exact List.mem_map_of_mem hc
            have hneed' : st.base.Needed needed := ⟨hnd, fun id => by rw [hneed, hl.needed]; simp⟩
            have hin := hi.dress hneed' hids'
            have hal' := Alive.before as (u.step op) (ls.map fun x => (x.1, x.2.receive (ev u op)))
              (Spec.lives_ne BSt.step ev [.call (P := GenKind × Nat) op] u ls hl.ne) hal
            obtain ⟨cons', hf⟩ := hl.fed hal'
            have hgs : ∀ i < gs.length, kinds[i]? = gs[i]? := by
              intro i hi; rw [hk, List.getElem?_append_left hi]
            have hdist : ∀ id < gs.length, streamDist π m kinds id = frameDist π (gs.map (·.2)) D id := by
              intro id hid
              funext a b
              have h1 := hgs id hid
              rw [List.getElem?_eq_getElem hid] at h1
              unfold frameDist streamDist
              rw [h1, hDk id _ h1]
              simp [hid]
            obtain ⟨st1, e1, e2, e3⟩ := batch_step (ops := ops) (m := m) (N := s.length) (M := M) (D := D) (Ok := Ok) (Inv := Inv) (π := π) (chan := gs.map (·.2))
              (s := s) (q := query.getD s) (selfJoin := query.isNone) (b := batchBuffer m query buffer) (order := batchOrder shuffle m s query buffer) (needed := needed)
              (fun i hi => hser i (by rw [List.length_map] at hi; rw [hk, List.length_append]; omega)) hm0 hs hql hb1
              (by intro h; rw [Option.isNone_iff_eq_none.mp h]; rfl)
              (by
                intro i ch hch l d hv k hk'
                cases hk1 : k.1 with
                | euclidean _ =>
                  have : ch = k.2 := by
                    rw [List.getElem?_map] at hch
                    obtain ⟨g, hg, rfl⟩ := Option.map_eq_some_iff.mp hch
                    rw [hgs i (List.getElem?_eq_some_iff.mp hg).1, hg] at hk'
                    cases hk'; rfl
                  exact ⟨hv, trivial, by simp⟩
                | znorm _ _ => exact ⟨hv, trivial⟩) op o
              (by
                intro a c hac hop i ch hch l x hx hsafe k hk'
                have : ch = k.2 := by
                  rw [List.getElem?_map] at hch
                  obtain ⟨g, hg, rfl⟩ := Option.map_eq_some_iff.mp hch
                  rw [hgs i (List.getElem?_eq_some_iff.mp hg).1, hg] at hk'
                  cases hk'; rfl
                subst this
                exact k.1.columnOk m M _ _ l x (hgood ⟨a, c, hac, by simp [SAct.calls, hop]⟩ k (List.mem_of_getElem? hk')) (by simpa using hx) (by simpa using hql) hsafe)
              st u hin hcall cons'
              (hf.congr fun c hc => Spec.BSt.events_congr _ _ _ _ _ _ _ _ c.2 (fun id hid => hdist id (by simpa using hids' c hc id hid)) u op)
            have hst1 := Anytime.step_static ops needed st st1 o e1
            obtain ⟨st', r1, r2⟩ := ih bs gs (ls.map fun x => (x.1, x.2.receive (ev u op))) (u.step op) st1 hk
              (fun ⟨a, c, h1, h2⟩ => hgood ⟨a, c, h1, by simp [SAct.calls, h2]⟩) e3.bare
              ⟨hst1.1.trans hst.1, hst1.2.1.trans hst.2.1, hst1.2.2.1.trans hst.2.2.1, hst1.2.2.2.trans hst.2.2.2⟩ (by rw [e2]; exact hl.receive hf) hal
              (by rw [Spec.ids_receive]; exact hrest)
            refine ⟨st', ?_, r2⟩
            rw [Anytime.session, Anytime.act, e1]
            exact r1
          | generator => exact hacts.elim
          | consumer => exact hacts.elim
          | again => exact hacts.elim
  obtain ⟨st0, i1, i2, i3, i4⟩ := Anytime.init_inv (G := ColCache ℝ ⊕ ZN) (C := C) shuffle hsh π m s query nDim buffer kinds ha Inv
  obtain ⟨st', r1, r2⟩ := main as bs [] [] BSt.init st0 rfl hgood i2.bare i4 (by rw [i3]; exact .nil)
    (fun x hx => ⟨Spec.lives_ne BSt.step ev as BSt.init [] (by simp) x hx, halive x hx⟩) hacts
  refine ⟨st'.base.cons, ?_, r2.imp fun _ _ h => h.2⟩
  unfold batchSession
  rw [i1]
  simp only [bind, Except.bind, r1]
  rfl

end Verif
