import Verif.Props.SessionsProfile
import Verif.Props.StreamFeed

/-!
# C90: sessions with a `StreamingCalculator`

Generators and consumers are added at any time, also consumers that were added before, with `append_series`, `append_query` and `calculate_columns` in between.
A generator misses the points that were appended before it was added: its columns are right once it has been given as many points as the windows hold.
-/

namespace Verif
open Spec
variable {α G C K : Type}

/-- The consumers get the distances of their own generators only. -/
theorem Spec.MSt.events_congr (m N : Nat) (M : Option Nat) (b : Int) (D D' : Nat → List α → List α → Fl K) (ids : List Nat) (h : ∀ id ∈ ids, D id = D' id)
    (u : MSt α) (x : MOp α) : u.events m N M b D ids x = u.events m N M b D' ids x := by
  cases x with
  | series v => rfl
  | query v => rfl
  | columns k =>
    simp only [MSt.events]
    apply List.map_congr_left
    intro i _
    congr 1
    exact List.map_congr_left fun id hid => by rw [h id hid]

/-- One call. -/
theorem stream_step {since : List (Nat × Nat)} {ops : Ops G C K} {m N : Nat} {M : Option Nat} {D : Nat → List K → List K → Fl K} {Ok : Nat → GSt K → GOp K → Prop}
    {Inv : Nat → G → GSt K → Prop} {π : Nat → α → K} {chan : List Nat} {nDim : Nat} {b : Int} {needed : List Nat}
    (H : ∀ i < chan.length, Serves ops.gen m N M (D i) (Ok i) (Inv i)) (hm0 : 0 < m) (hN : m ≤ N) (hM : ∀ M', M = some M' → m ≤ M')
    (hb : -1 ≤ b) (hbj : M ≠ none → b = -1) (x : MOp α) (o : Streaming.Op K)
    (hser : ∀ i < chan.length, ∀ w v, Ok i w (.series v)) (hqu : M ≠ none → ∀ i < chan.length, ∀ w v, Ok i w (.query v))
    (st : Streaming G C) (u : MSt α) (hi : LateInv Inv π chan since nDim m N M b st u) (hneed : st.base.Needed needed)
    (hids : ∀ c ∈ st.base.cons, ∀ id ∈ c.2, id < chan.length)
    (hokc : ∀ k, x = .columns k → ∀ (i ch : Nat), chan[i]? = some ch → ∀ (l : Option (Int × Bool)) (c : Nat), c + m ≤ (lastN N (u.s.map (π ch))).length →
      m ≤ (lastN (M.getD N) (u.q.map (π ch))).length → (∀ t e, l = some (t, e) → t < (c : Int)) →
      Ok i ⟨lastN N (u.s.map (π ch)), lastN (M.getD N) (u.q.map (π ch)), l⟩ (.column c))
    (hfill : ∀ k, x = .columns k → ∀ y ∈ since, Filled N (M.getD N) y u) (hv : u.Valid m M x) (hc : IsCallAtOf nDim (fun ch x => .fin (π ch x)) m N u x o)
    (cons' : List (C × List Nat)) (hf : AllFed ops (fun ids => u.events m N M b (frameDist π chan D) ids x) st.base.cons cons') :
    ∃ st', Streaming.step ops needed st o = .ok st' ∧ st'.base.cons = cons' ∧ LateInv Inv π chan since nDim m N M b st' (u.step m N M x) := by
  have HN : ∀ i < chan.length, NearServes .fin ops.gen m N M (D i) Eq (Ok i) (Inv i) := fun i h => (H i h).near
  cases x with
  | series v =>
    cases o with
    | series a => exact late_series HN hm0 hN b st u hi v a hc (fun i ch hch w => hser i (List.getElem?_eq_some_iff.mp hch).1 w _) cons' hf
    | query a => exact hc.elim
    | columns i k => exact hc.elim
  | query v =>
    cases o with
    | query a =>
      cases M with
      | none => exact absurd rfl hv
      | some M' => exact late_query HN hm0 (hM M' rfl) b st u hi v a hc (fun i ch hch w => hqu (by simp) i (List.getElem?_eq_some_iff.mp hch).1 w _) cons' hf
    | series a => exact hc.elim
    | columns i k => exact hc.elim
  | columns k =>
    cases o with
    | columns i upto =>
      have hex : ∀ V, NearTable m chan.length (fun _ => Eq) (frameDist π chan D) (lastN N u.s) (lastN (M.getD N) u.q) V → ∀ c ∈ st.base.cons,
          u.eventsOf m N M b (frameDist π chan D) c.2 V (.columns k) = u.events m N M b (frameDist π chan D) c.2 (.columns k) := by
        intro V hV c hcm
        have := allEventsOf_exact b hbj c.2 chan.length (hids c hcm) (frameDist π chan D) hm0 [(.columns k, V)] u hi.self ⟨hv, trivial⟩ ⟨hV, trivial⟩
        simpa [MSt.allEventsOf, MSt.allEvents] using this
      obtain ⟨V, hV, st', e1, e2, e3⟩ := feed_columns (Rel := fun _ => Eq) HN (fun _ _ _ => rfl) hm0 hN hM b hb st u needed hneed hids (hi.feed (hfill k rfl)) k i upto hc hv
        (fun j ch hch l c p1 p2 p3 => hokc k rfl j ch hch l c p1 p2 p3) (fun V hV => ⟨cons', hf.congr fun c hcm => (hex V hV c hcm).symm⟩)
      exact ⟨st', e1, (e2.congr fun c hcm => hex V hV c hcm).unique hf, e3.late (hfill k rfl) hi.sinceLen hi.before⟩
    | series a => exact hc.elim
    | query a => exact hc.elim

/-- A new calculator. -/
theorem Streaming.init_inv (π : Nat → α → ℝ) (m N : Nat) (M : Option Nat) (nDim : Nat) (buffer : Option Int) (kinds : List (GenKind × Nat))
    (ha : StreamArgs m N M nDim buffer kinds [] []) (Inv : Nat → G → GSt ℝ → Prop) :
    ∃ st : Streaming G C, Streaming.init (m : Int) (N : Int) (M.map fun M : Nat => (M : Int)) nDim buffer = .ok st ∧
      FeedInv Inv π [] nDim m N M (bufferOf m M buffer) st MSt.init ∧ st.base.cons = [] := by
  have hN := ha.series
  have hM := ha.query
  have hb := ha.buffer
  have e1 : ((N : Int) - m + 1) = ((N + 1 - m : Nat) : Int) := by omega
  obtain ⟨st0, s1, s2⟩ : ∃ st0 : Streaming G C, Streaming.init (m : Int) (N : Int) (M.map fun M : Nat => (M : Int)) nDim buffer = .ok st0 ∧
      st0 = ⟨⟨M.isNone, m, nDim, ((N + 1 - m : Nat) : Int), ((M.getD N + 1 - m : Nat) : Int), bufferOf m M buffer, [], [], -1⟩, 0, if M.isNone then -1 else 0⟩ := by
    refine ⟨_, ?_, rfl⟩
    cases M with
    | none =>
      have hmem : buffer.getD ((m : Int) / 2) ∈ pyRange (-1) ((N + 1 - m : Nat) : Int) := by rw [mem_pyRange]; have := hb rfl; omega
      simp only [Option.map_none]
      unfold Streaming.init Calc.init
      simp only [e1, if_true, if_pos hmem, bind, Except.bind, pure, Except.pure]
      rfl
    | some M' =>
      have hM' := hM M' rfl
      have e3 : ((M' : Int) - m + 1) = ((M' + 1 - m : Nat) : Int) := by omega
      simp only [Option.map_some]
      unfold Streaming.init Calc.init
      simp only [e1, e3, bind, Except.bind, pure, Except.pure]
      rfl
  refine ⟨st0, s1, ?_, by rw [s2]⟩
  rw [s2]
  refine ⟨rfl, by simp, by simp, rfl, rfl, rfl, rfl, rfl, rfl, by simp [MSt.init], rfl, ?_, fun _ => rfl, by simp [MSt.init]⟩
  intro h
  have : M.isNone = false := by cases M <;> simp at h ⊢
  simp [this, MSt.init]

/-- What the consumers of a `StreamingCalculator` live through. -/
noncomputable def streamLives (π : Nat → α → ℝ) (m N : Nat) (M : Option Nat) (buffer : Option Int) (as : List (SAct (GenKind × Nat) C (MOp α))) : List (C × Life ℝ) :=
  lives (fun u op => u.step m N M op) (fun u op ids => u.events m N M (bufferOf m M buffer) (streamDist π m (SAct.gens as)) ids op) MSt.init [] as

/-- A call that is made in state `u`, on data for which the generators' columns are right. -/
def IsStreamCall (π : Nat → α → ℝ) (m N : Nat) (M : Option Nat) (nDim : Nat) (kinds : List (GenKind × Nat)) (u : MSt α) (op : MOp α) (o : Streaming.Op ℝ) : Prop :=
  IsCallAtOf nDim (fun ch x => .fin (π ch x)) m N u op o ∧ u.Valid m M op ∧
    ∀ k, op = .columns k → ∀ g ∈ kinds, g.1.Good m (lastN N (u.s.map (π g.2))) (lastN (M.getD N) (u.q.map (π g.2)))

/-- Columns are calculated only when every generator has been given all that the windows hold, whenever it was added (`since`: how much had been appended then). -/
def CaughtUp {P : Type} (m N : Nat) (M : Option Nat) : List (Nat × Nat) → MSt α → List (SAct P C (MOp α)) → Prop
  | _, _, [] => True
  | since, u, .generator _ :: as => CaughtUp m N M (since ++ [(u.s.length, u.q.length)]) u as
  | since, u, .consumer _ _ :: as => CaughtUp m N M since u as
  | since, u, .again _ _ :: as => CaughtUp m N M since u as
  | since, u, .call op :: as => (∀ k, op = .columns k → ∀ x ∈ since, Filled N (M.getD N) x u) ∧ CaughtUp m N M since (u.step m N M op) as

/-- What was appended and calculated in a session. -/
def streamState {P : Type} (m N : Nat) (M : Option Nat) : MSt α → List (SAct P C (MOp α)) → MSt α
  | u, [] => u
  | u, .generator _ :: as => streamState m N M u as
  | u, .consumer _ _ :: as => streamState m N M u as
  | u, .again _ _ :: as => streamState m N M u as
  | u, .call op :: as => streamState m N M (u.step m N M op) as

/-- How much had been appended to the series and the query when the generators were added. -/
def addedAt {P : Type} (m N : Nat) (M : Option Nat) : MSt α → List (SAct P C (MOp α)) → List (Nat × Nat)
  | _, [] => []
  | u, .generator _ :: as => (u.s.length, u.q.length) :: addedAt m N M u as
  | u, .consumer _ _ :: as => addedAt m N M u as
  | u, .again _ _ :: as => addedAt m N M u as
  | u, .call op :: as => addedAt m N M (u.step m N M op) as

/-- What a generator of `kinds` holds. -/
def GensHold (m N : Nat) (M : Option Nat) (kinds : List (GenKind × Nat)) (i : Nat) (x : ColCache ℝ ⊕ ZN) (st : GSt ℝ) : Prop :=
  ∀ k, kinds[i]? = some k → k.1.Holds m N M x st

/-- A session that goes on from a state of the calculator. -/
theorem stream_session_from (memE : Nat → List (Fl ℝ)) (hmemE : ∀ n, (memE n).length = n) (memZ : ZN.Mem) (hmemZ : memZ.Ok)
    (ops : Ops (ColCache ℝ ⊕ ZN) C ℝ) (hops : ops.gen = GenKind.ops memE memZ) (π : Nat → α → ℝ) (m N : Nat) (M : Option Nat) (nDim : Nat) (buffer : Option Int)
    (kinds : List (GenKind × Nat)) (ha : StreamArgs m N M nDim buffer kinds [] []) :
    ∀ (as : List (SAct (GenKind × Nat) C (MOp α))) (bs : List (Act GenKind C (Streaming.Op ℝ))) (gs : List (GenKind × Nat)) (since : List (Nat × Nat)) (ls : List (C × Life ℝ)) (u : MSt α)
      (st : Streaming (ColCache ℝ ⊕ ZN) C), kinds = gs ++ SAct.gens as →
      LateInv (GensHold m N M kinds) π (gs.map (·.2)) since nDim m N M (bufferOf m M buffer) st u → CaughtUp m N M since u as →
      Lived ops ((M.getD N + 1 - m : Nat) : Int) ((N + 1 - m : Nat) : Int) ls st.base.cons →
      Alive ops ((M.getD N + 1 - m : Nat) : Int) ((N + 1 - m : Nat) : Int) (lives (fun u op => u.step m N M op)
        (fun u op ids => u.events m N M (bufferOf m M buffer) (streamDist π m kinds) ids op) u ls as) →
      AreActs (fun u op => u.step m N M op) (IsStreamCall π m N M nDim kinds) (fun _ => True) gs.length (ls.map fun x => x.2.ids) u as bs →
      ∃ st', Streaming.session ops (fun k => k.streaming memE memZ) bs st = .ok st' ∧
        Lived ops ((M.getD N + 1 - m : Nat) : Int) ((N + 1 - m : Nat) : Int) (lives (fun u op => u.step m N M op)
          (fun u op ids => u.events m N M (bufferOf m M buffer) (streamDist π m kinds) ids op) u ls as) st'.base.cons ∧
        LateInv (GensHold m N M kinds) π (kinds.map (·.2)) (since ++ addedAt m N M u as) nDim m N M (bufferOf m M buffer) st' (streamState m N M u as) := by
  have hm0 := ha.pos
  have hN := ha.series
  have hM := ha.query
  have hb1 : -1 ≤ bufferOf m M buffer := by
    unfold bufferOf; split
    · rename_i h; exact (ha.buffer (by simpa using h)).1
    · omega
  have hbj : M ≠ none → bufferOf m M buffer = -1 := by intro h; unfold bufferOf; rw [if_neg]; simpa using h
  set h : Int := ((M.getD N + 1 - m : Nat) : Int) with hh
  set w : Int := ((N + 1 - m : Nat) : Int) with hw
  set D : Nat → List ℝ → List ℝ → Fl ℝ := fun i => match kinds[i]? with
    | some k => k.1.dist m
    | none => fun _ _ => .nan with hD
  have hDk : ∀ i k, kinds[i]? = some k → D i = k.1.dist m := by
    intro i k h; simp [hD, h]
  set Inv : Nat → ColCache ℝ ⊕ ZN → GSt ℝ → Prop := GensHold m N M kinds with hInv
  set Ok : Nat → GSt ℝ → GOp ℝ → Prop := fun i st op => ∀ k, kinds[i]? = some k → k.1.CallOk m M st op with hOk
  set ev : MSt α → MOp α → List Nat → List (CEvent ℝ) := fun u op ids => u.events m N M (bufferOf m M buffer) (streamDist π m kinds) ids op with hev
  set step : MSt α → MOp α → MSt α := fun u op => u.step m N M op with hstep
  have hser : ∀ i < kinds.length, Serves ops.gen m N M (D i) (Ok i) (Inv i) := by
    intro i hi
    obtain ⟨k, hk⟩ : ∃ k, kinds[i]? = some k := ⟨_, List.getElem?_eq_getElem hi⟩
    rw [hDk i k hk, hops]
    have h1 : Ok i = k.1.CallOk m M := by
      funext st op
      exact propext ⟨fun h => h k hk, fun h k' hk' => by rw [hk] at hk'; cases hk'; exact h⟩
    have h2 : Inv i = k.1.Holds m N M := by
      funext x st
      exact propext ⟨fun h => h k hk, fun h k' hk' => by rw [hk] at hk'; cases hk'; exact h⟩
    rw [h1, h2]
    exact GenKind.serves memE hmemE memZ hmemZ m N M k.1
  have hsok : ∀ (k : GenKind) w x, k.CallOk m M w (.series x) := by
    intro k w x
    cases k with
    | euclidean _ => exact ⟨trivial, trivial, by simp⟩
    | znorm _ _ => exact ⟨trivial, trivial⟩
  have hqok : M ≠ none → ∀ (k : GenKind) w x, k.CallOk m M w (.query x) := by
    intro h k w x
    cases k with
    | euclidean _ => exact ⟨h, trivial, by simp⟩
    | znorm _ _ => exact ⟨h, trivial⟩
  intro as
  induction as with
  | nil =>
    intro bs gs since ls u st hk hi _ hl _ hacts
    cases bs with
    | nil => exact ⟨st, rfl, hl, by rw [hk]; simpa [SAct.gens, addedAt, streamState] using hi⟩
    | cons b bs => exact hacts.elim
  | cons a as ih =>
    intro bs gs since ls u st hk hi hcu hl hal hacts
    have hrow : st.base.numQuery = h := hi.rows
    have hcol : st.base.numSeries = w := hi.cols
    cases bs with
    | nil => cases a <;> exact hacts.elim
    | cons b bs =>
      cases a with
      | generator g =>
        cases b with
        | generator g' dim =>
          obtain ⟨-, rfl, rfl, hrest⟩ := hacts
          have hgk : kinds[gs.length]? = some g := by rw [hk]; simp [SAct.gens]
          have hgm : g ∈ kinds := List.mem_of_getElem? hgk
          have hch := ha.chan g hgm
          obtain ⟨x, h2, h3⟩ := GenKind.streaming_ok memE hmemE memZ hmemZ m N M hm0 hN hM g.1 (ha.scale g hgm)
          have hadd : st.addGenerator (g.1.streaming memE memZ) (g.2 : Int) = .ok { st with base := { st.base with gens := st.base.gens ++ [(x, g.2)] } } := by
            unfold Streaming.addGenerator
            have h1 : ¬ ((g.2 : Int) < 0 ∨ (g.2 : Int) ≥ (st.base.nDim : Int)) := by rw [hi.nDim]; omega
            have e2 : st.base.numSeries + st.base.m - 1 = (N : Int) := by rw [hi.cols, hi.m_eq]; omega
            have hq : (if st.base.selfJoin then none else some (st.base.numQuery + st.base.m - 1)) = M.map fun M : Nat => (M : Int) := by
              rw [hi.selfJoin, hi.rows, hi.m_eq]
              cases M with
              | none => rfl
              | some M' =>
                have hM' := hM M' rfl
                simp only [Option.isNone_some, Bool.false_eq_true, if_false, Option.getD_some, Option.map_some]
                congr 1; omega
            rw [if_neg h1, e2, hq, hi.m_eq, h2]
            simp only [bind, Except.bind, pure, Except.pure, Int.toNat_natCast]
          have hbi : LateInv Inv π ((gs ++ [g]).map (·.2)) (since ++ [(u.s.length, u.q.length)]) nDim m N M (bufferOf m M buffer) { st with base := { st.base with gens := st.base.gens ++ [(x, g.2)] } } u := by
            have hlen : st.base.gens.length = gs.length := by rw [← List.length_map (f := fun x : GenKind × Nat => x.2)]; exact hi.genLen
            have hsl : since.length = gs.length := by rw [hi.sinceLen, List.length_map]
            refine ⟨by simp [hlen], by simp [hsl], ?_, ?_, ?_, hi.selfJoin, hi.m_eq, hi.nDim, hi.cols, hi.rows, hi.buffer, hi.last, hi.streamedS, hi.streamedQ, hi.self, hi.next⟩
            · intro i ch y hch' hy
              show ∃ g' last, (st.base.gens ++ [(x, g.2)])[i]? = some (g', ch) ∧ _
              rw [List.map_append] at hch'
              by_cases hlt : i < gs.length
              · rw [List.getElem?_append_left (by simpa using hlt)] at hch'
                rw [List.getElem?_append_left (by rw [hsl]; exact hlt)] at hy
                rw [List.getElem?_append_left (by rw [hlen]; exact hlt)]
                exact hi.gen i ch y hch' hy
              · have hi' : i = gs.length := by
                  have := (List.getElem?_eq_some_iff.mp hch').1
                  simp at this; omega
                subst hi'
                rw [List.getElem?_append_right (by simp)] at hch'
                simp at hch'
                subst hch'
                rw [List.getElem?_append_right (by rw [hsl]), hsl] at hy
                simp at hy
                subst hy
                refine ⟨x, none, ?_, ?_, by simp⟩
                · rw [List.getElem?_append_right (by rw [hlen]), hlen]; simp
                · intro k' hk'
                  rw [hgk] at hk'
                  cases hk'
                  simpa [lastN] using h3
            · intro y hy
              rcases List.mem_append.mp hy with hy | hy
              · exact hi.before y hy
              · rw [List.mem_singleton.mp hy]
                exact ⟨le_rfl, le_rfl, fun h => by rw [hi.self h]⟩
            · intro ch hch'
              rw [List.map_append] at hch'
              rcases List.mem_append.mp hch' with hch' | hch'
              · exact hi.chanLt ch hch'
              · simp at hch'; subst hch'; exact hch
          obtain ⟨st', r1, r2, r3⟩ := ih bs (gs ++ [g]) _ ls u { st with base := { st.base with gens := st.base.gens ++ [(x, g.2)] } } (by rw [hk]; simp [SAct.gens])
            hbi hcu hl hal (by rw [List.length_append]; exact hrest)
          exact ⟨st', by rw [Streaming.session, Streaming.act, hadd]; exact r1, r2, by simpa [addedAt, streamState] using r3⟩
        | consumer => exact hacts.elim
        | again => exact hacts.elim
        | call => exact hacts.elim
      | consumer c ids =>
        cases b with
        | consumer c' ids' =>
          obtain ⟨rfl, rfl, hrest⟩ := hacts
          have hl' : Lived ops st.base.numQuery st.base.numSeries ls st.base.cons := by rw [hrow, hcol]; exact hl
          have hal' := Alive.before as u (ls ++ [(c', [(ids', [])])]) (by
            intro y hy
            rcases List.mem_append.mp hy with hy | hy
            · exact hl.ne y hy
            · rw [List.mem_singleton.mp hy]; simp) hal
          obtain ⟨cons', e1, e2⟩ := hl'.add c' ids' (by rw [hrow, hcol]; exact hal')
          rw [hrow, hcol] at e2
          obtain ⟨st', r1, r2, r3⟩ := ih bs gs since (ls ++ [(c', [(ids', [])])]) u { st with base := { st.base with cons := cons' } } hk
            ⟨hi.genLen, hi.sinceLen, hi.gen, hi.before, hi.chanLt, hi.selfJoin, hi.m_eq, hi.nDim, hi.cols, hi.rows, hi.buffer, hi.last, hi.streamedS, hi.streamedQ, hi.self, hi.next⟩ hcu e2 hal
            (by simpa [Life.ids] using hrest)
          refine ⟨st', ?_, r2, r3⟩
          rw [Streaming.session, Streaming.act, Streaming.addConsumer, e1]
          exact r1
        | generator => exact hacts.elim
        | again => exact hacts.elim
        | call => exact hacts.elim
      | again k ids =>
        cases b with
        | again k' ids' =>
          obtain ⟨rfl, rfl, hkl, hrest⟩ := hacts
          have hl' : Lived ops st.base.numQuery st.base.numSeries ls st.base.cons := by rw [hrow, hcol]; exact hl
          have hal' := Alive.before as u (ls.modify k' fun x => (x.1, x.2 ++ [(ids', [])]))
            (Spec.lives_ne step ev [.again (P := GenKind × Nat) k' ids'] u ls hl.ne) hal
          obtain ⟨cons', e1, e2⟩ := hl'.again k' (by simpa using hkl) ids' (by rw [hrow, hcol]; exact hal')
          rw [hrow, hcol] at e2
          obtain ⟨st', r1, r2, r3⟩ := ih bs gs since (ls.modify k' fun x => (x.1, x.2 ++ [(ids', [])])) u { st with base := { st.base with cons := cons' } } hk
            ⟨hi.genLen, hi.sinceLen, hi.gen, hi.before, hi.chanLt, hi.selfJoin, hi.m_eq, hi.nDim, hi.cols, hi.rows, hi.buffer, hi.last, hi.streamedS, hi.streamedQ, hi.self, hi.next⟩ hcu e2 hal
            (by rw [Spec.ids_again]; exact hrest)
          refine ⟨st', ?_, r2, r3⟩
          rw [Streaming.session, Streaming.act, e1]
          exact r1
        | generator => exact hacts.elim
        | consumer => exact hacts.elim
        | call => exact hacts.elim
      | call op =>
        cases b with
        | call needed o =>
          obtain ⟨⟨hcall, hval, hgood⟩, hnd, hneed, hids, hrest⟩ := hacts
          have hids' : ∀ c ∈ st.base.cons, ∀ id ∈ c.2, id < (gs.map (·.2)).length := by
            intro c hc id hid
            rw [List.length_map]
            refine hids c.2 ?_ id hid
            rw [← hl.idss]
            exact List.mem_map_of_mem hc
          have hneed' : st.base.Needed needed := ⟨hnd, fun id => by rw [hneed, hl.needed]; simp⟩
          have hal' := Alive.before as (step u op) (ls.map fun x => (x.1, x.2.receive (ev u op)))
            (Spec.lives_ne step ev [.call (P := GenKind × Nat) op] u ls hl.ne) hal
          obtain ⟨cons', hf⟩ := hl.fed hal'
          have hgs : ∀ i < gs.length, kinds[i]? = gs[i]? := by
            intro i hi; rw [hk, List.getElem?_append_left hi]
          have hdist : ∀ id < gs.length, streamDist π m kinds id = frameDist π (gs.map (·.2)) D id := by
            intro id hid
            funext a b
            have h1 := hgs id hid
            rw [List.getElem?_eq_getElem hid] at h1
            unfold frameDist streamDist
            rw [h1, hDk id _ h1]
            simp [hid]
          obtain ⟨st1, e1, e2, e3⟩ := stream_step (ops := ops) (m := m) (N := N) (M := M) (D := D) (Ok := Ok) (Inv := Inv) (π := π) (chan := gs.map (·.2))
            (nDim := nDim) (b := bufferOf m M buffer) (needed := needed)
            (fun i hi => hser i (by rw [List.length_map] at hi; rw [hk, List.length_append]; omega)) hm0 hN hM hb1 hbj op o
            (fun i _ w v k _ => hsok k.1 w v) (fun h i _ w v k _ => hqok h k.1 w v) st u hi hneed' hids'
            (by
              intro k hop i ch hch l c h1 h2 h3 k' hk'
              have : ch = k'.2 := by
                rw [List.getElem?_map] at hch
                obtain ⟨g, hg, rfl⟩ := Option.map_eq_some_iff.mp hch
                rw [hgs i (List.getElem?_eq_some_iff.mp hg).1, hg] at hk'
                cases hk'; rfl
              subst this
              exact k'.1.columnOk m M _ _ l c (hgood k hop k' (List.mem_of_getElem? hk')) h1 h2 (fun t e he => .inr (h3 t e he)))
            hcu.1 hval hcall cons'
            (hf.congr fun c hc => Spec.MSt.events_congr _ _ _ _ _ _ c.2 (fun id hid => hdist id (by simpa using hids' c hc id hid)) u op)
          have hlr : Lived ops h w (ls.map fun x => (x.1, x.2.receive (ev u op))) st1.base.cons := by rw [e2]; exact hl.receive hf
          obtain ⟨st', r1, r2, r3⟩ := ih bs gs since _ (step u op) st1 hk e3 hcu.2 hlr hal (by rw [Spec.ids_receive]; exact hrest)
          refine ⟨st', ?_, r2, r3⟩
          rw [Streaming.session, Streaming.act, e1]
          exact r1
        | generator => exact hacts.elim
        | consumer => exact hacts.elim
        | again => exact hacts.elim

/-- The state of the calculator after a session. -/
theorem stream_session_state (memE : Nat → List (Fl ℝ)) (hmemE : ∀ n, (memE n).length = n) (memZ : ZN.Mem) (hmemZ : memZ.Ok)
    (ops : Ops (ColCache ℝ ⊕ ZN) C ℝ) (hops : ops.gen = GenKind.ops memE memZ) (π : Nat → α → ℝ) (m N : Nat) (M : Option Nat) (nDim : Nat) (buffer : Option Int)
    (as : List (SAct (GenKind × Nat) C (MOp α))) (bs : List (Act GenKind C (Streaming.Op ℝ))) (ha : StreamArgs m N M nDim buffer (SAct.gens as) [] [])
    (hacts : AreActs (fun u op => u.step m N M op) (IsStreamCall π m N M nDim (SAct.gens as)) (fun _ => True) 0 [] MSt.init as bs) (hcu : CaughtUp m N M [] MSt.init as)
    (halive : ∀ x ∈ streamLives π m N M buffer as, ∃ c', live ops ((M.getD N + 1 - m : Nat) : Int) ((N + 1 - m : Nat) : Int) x.1 x.2 = .ok c') :
    ∃ st0 st', Streaming.init (m : Int) (N : Int) (M.map fun M : Nat => (M : Int)) nDim buffer = .ok st0 ∧
      Streaming.session ops (fun k => k.streaming memE memZ) bs st0 = .ok st' ∧
      Lived ops ((M.getD N + 1 - m : Nat) : Int) ((N + 1 - m : Nat) : Int) (streamLives π m N M buffer as) st'.base.cons ∧
      LateInv (GensHold m N M (SAct.gens as)) π ((SAct.gens as).map (·.2)) (addedAt m N M MSt.init as) nDim m N M
        (bufferOf m M buffer) st' (streamState m N M MSt.init as) := by
  obtain ⟨st0, i1, i2, i3⟩ := Streaming.init_inv (G := ColCache ℝ ⊕ ZN) (C := C) π m N M nDim buffer (SAct.gens as) ha (GensHold m N M (SAct.gens as))
  obtain ⟨st', r1, r2, r3⟩ := stream_session_from memE hmemE memZ hmemZ ops hops π m N M nDim buffer (SAct.gens as) ha as bs [] [] [] MSt.init st0 rfl
    (i2.late (by simp) rfl (by simp)) hcu (by rw [i3]; exact .nil) (fun x hx => ⟨Spec.lives_ne _ _ as MSt.init [] (by simp) x hx, halive x hx⟩) hacts
  exact ⟨st0, st', i1, r1, r2, r3⟩

/-- **C90, streaming.** A session with a `StreamingCalculator`: generators and consumers are added at any time, also consumers that were added before,
with `append_series`, `append_query` and `calculate_columns` in between. No act raises, and every consumer is in the state that its life leaves it
in: initialised whenever it is added, for the generators it is added for, and given the columns and the moves of the windows from then on. Partial: a Euclidean
generator needs data without different subsequences at squared distance below `1e-15` when columns are calculated (`C62_euclidean_nan`), and columns
must not be calculated before a generator that was added late has been given as many points as the windows hold (`C90_late_wrong`). -/
theorem C90_stream_session_partial (memE : Nat → List (Fl ℝ)) (hmemE : ∀ n, (memE n).length = n) (memZ : ZN.Mem) (hmemZ : memZ.Ok)
    (ops : Ops (ColCache ℝ ⊕ ZN) C ℝ) (hops : ops.gen = GenKind.ops memE memZ) (π : Nat → α → ℝ) (m N : Nat) (M : Option Nat) (nDim : Nat) (buffer : Option Int)
    (as : List (SAct (GenKind × Nat) C (MOp α))) (bs : List (Act GenKind C (Streaming.Op ℝ))) (ha : StreamArgs m N M nDim buffer (SAct.gens as) [] [])
    (hacts : AreActs (fun u op => u.step m N M op) (IsStreamCall π m N M nDim (SAct.gens as)) (fun _ => True) 0 [] MSt.init as bs) (hcu : CaughtUp m N M [] MSt.init as)
    (halive : ∀ x ∈ streamLives π m N M buffer as, ∃ c', live ops ((M.getD N + 1 - m : Nat) : Int) ((N + 1 - m : Nat) : Int) x.1 x.2 = .ok c') :
    ∃ cons, streamSession ops (fun k => k.streaming memE memZ) m N (M.map fun M : Nat => (M : Int)) nDim buffer bs = .ok cons ∧
      List.Forall₂ (fun x c => c.2 = x.2.ids ∧ live ops ((M.getD N + 1 - m : Nat) : Int) ((N + 1 - m : Nat) : Int) x.1 x.2 = .ok c.1)
        (streamLives π m N M buffer as) cons := by
  obtain ⟨st0, st', i1, r1, r2, -⟩ := stream_session_state memE hmemE memZ hmemZ ops hops π m N M nDim buffer as bs ha hacts hcu halive
  refine ⟨st'.base.cons, ?_, r2.imp fun _ _ h => h.2⟩
  unfold streamSession
  rw [i1]
  simp only [bind, Except.bind, r1]
  rfl

/-- The times of the consumers of a `StreamingCalculator`: for each addition the generators, what was appended and calculated then, and the calls since. -/
def streamSpans (m N : Nat) (M : Option Nat) (as : List (SAct (GenKind × Nat) C (MOp α))) : List (C × List (Span (MSt α) (MOp α))) :=
  spans (fun u op => u.step m N M op) MSt.init [] as

theorem received_stream (m N : Nat) (M : Option Nat) (b : Int) (D : Nat → List α → List α → Fl ℝ) (ids : List Nat) (ops : List (MOp α)) :
    ∀ u : MSt α, received (fun u op => u.step m N M op) (fun u op ids => u.events m N M b D ids op) ids u ops = MSt.allEvents m N M b D ids u ops := by
  induction ops with
  | nil => intro u; rfl
  | cons op ops ih => intro u; rw [received, MSt.allEvents, ih]

theorem streamLives_spans (π : Nat → α → ℝ) (m N : Nat) (M : Option Nat) (buffer : Option Int) (as : List (SAct (GenKind × Nat) C (MOp α))) :
    streamLives π m N M buffer as = (streamSpans m N M as).map fun x => (x.1, x.2.map fun y =>
      (y.ids, MSt.allEvents m N M (bufferOf m M buffer) (streamDist π m (SAct.gens as)) y.ids y.start y.ops)) := by
  have := Spec.lives_spans (fun (u : MSt α) op => u.step m N M op) (fun u op ids => u.events m N M (bufferOf m M buffer) (streamDist π m (SAct.gens as)) ids op)
    as MSt.init [] (by simp)
  unfold streamLives streamSpans
  rw [List.map_nil] at this
  rw [this]
  apply List.map_congr_left
  intro x _
  simp only [Span.life, received_stream]

/-- **C90, streaming, in terms of consumers that note their calls** (and begin anew when they are initialised): after a session each of them has noted exactly the
columns of the generators it was last added for and the moves of the windows since it was last added. -/
theorem C90_stream_recorded_partial (memE : Nat → List (Fl ℝ)) (hmemE : ∀ n, (memE n).length = n) (memZ : ZN.Mem) (hmemZ : memZ.Ok)
    (π : Nat → α → ℝ) (m N : Nat) (M : Option Nat) (nDim : Nat) (buffer : Option Int)
    (as : List (SAct (GenKind × Nat) (List (CEvent ℝ)) (MOp α))) (bs : List (Act GenKind (List (CEvent ℝ)) (Streaming.Op ℝ)))
    (ha : StreamArgs m N M nDim buffer (SAct.gens as) [] [])
    (hacts : AreActs (fun u op => u.step m N M op) (IsStreamCall π m N M nDim (SAct.gens as)) (fun _ => True) 0 [] MSt.init as bs) (hcu : CaughtUp m N M [] MSt.init as) :
    ∃ cons, streamSession (recorder (GenKind.ops memE memZ)) (fun k => k.streaming memE memZ) m N (M.map fun M : Nat => (M : Int)) nDim buffer bs = .ok cons ∧
      List.Forall₂ (fun x c => ∃ y, x.2.getLast? = some y ∧ c.2 = y.ids ∧
        c.1 = MSt.allEvents m N M (bufferOf m M buffer) (streamDist π m (SAct.gens as)) y.ids y.start y.ops) (streamSpans m N M as) cons := by
  have hstep : ∀ (x : List Nat × List (CEvent ℝ)) c, live (recorder (GenKind.ops memE memZ)) ((M.getD N + 1 - m : Nat) : Int) ((N + 1 - m : Nat) : Int) c [x] = .ok x.2 := by
    intro x c
    show (feed (recorder (GenKind.ops memE memZ)) [] x.2).bind _ = _
    rw [recorder_feed]
    rfl
  have hne : ∀ x ∈ streamSpans m N M as, x.2 ≠ [] := fun x hx =>
    (Spec.spans_mem _ (fun _ => True) (fun _ => True) as MSt.init [] (fun a _ => by cases a <;> trivial) (fun _ _ => trivial) (by simp) x hx).1
  have hlast : ∀ x ∈ streamSpans m N M as, ∃ y, x.2.getLast? = some y ∧
      live (recorder (GenKind.ops memE memZ)) ((M.getD N + 1 - m : Nat) : Int) ((N + 1 - m : Nat) : Int) x.1
        (x.2.map fun y => (y.ids, MSt.allEvents m N M (bufferOf m M buffer) (streamDist π m (SAct.gens as)) y.ids y.start y.ops)) =
        .ok (MSt.allEvents m N M (bufferOf m M buffer) (streamDist π m (SAct.gens as)) y.ids y.start y.ops) := by
    intro x hx
    obtain ⟨z, h1, h2⟩ := Spec.live_last (recorder (GenKind.ops memE memZ)) ((M.getD N + 1 - m : Nat) : Int) ((N + 1 - m : Nat) : Int) (fun _ _ _ => rfl)
      (x.2.map fun y => (y.ids, MSt.allEvents m N M (bufferOf m M buffer) (streamDist π m (SAct.gens as)) y.ids y.start y.ops)) (by simpa using hne x hx)
      (fun z _ c => ⟨_, hstep z c⟩) x.1 x.1
    rw [List.getLast?_map] at h1
    obtain ⟨y, hy, rfl⟩ := Option.map_eq_some_iff.mp h1
    exact ⟨y, hy, by rw [h2, hstep]⟩
  obtain ⟨cons, r1, r2⟩ := C90_stream_session_partial memE hmemE memZ hmemZ (recorder (GenKind.ops memE memZ)) rfl π m N M nDim buffer as bs ha hacts hcu (by
    rw [streamLives_spans]
    intro x hx
    obtain ⟨z, hz, rfl⟩ := List.mem_map.mp hx
    obtain ⟨y, -, h⟩ := hlast z hz
    exact ⟨_, h⟩)
  refine ⟨cons, r1, ?_⟩
  rw [streamLives_spans, List.forall₂_map_left_iff, forall₂_iff_getElem?] at r2
  rw [forall₂_iff_getElem?]
  refine ⟨r2.1, fun i x c hx hc => ?_⟩
  obtain ⟨h1, h2⟩ := r2.2 i x c hx hc
  obtain ⟨y, h3, h4⟩ := hlast x (List.mem_of_getElem? hx)
  dsimp only at h1 h2
  rw [h4] at h2
  refine ⟨y, h3, ?_, (Except.ok.inj h2).symm⟩
  rw [h1, Life.ids, List.getLast?_map, h3]
  rfl

/-- A session: a consumer of the first generator; two more generators; points; a consumer of the third generator; column 0, then an interrupt; the first consumer
again, now for the third and the second generator; more points and columns; a fourth generator, points that fill the windows, a consumer of the fourth and the first
generator and two columns. -/
noncomputable def exStreamActs {C : Type} (c : C) : List (SAct (GenKind × Nat) C (MOp (ℤ × ℤ))) :=
  [.generator (.euclidean 2, 1), .consumer c [0], .call (.columns 1), .generator (.znorm 0 (3 / 2), 0), .generator (.znorm (1 / 10) 1, 1),
   .call (.series [(1, 2), (5, 0), (2, 7), (8, 1), (3, 3)]), .call (.query [(4, 1), (4, 6), (7, 2)]), .consumer c [2], .call (.columns 1), .again 0 [2, 1],
   .call (.series [(9, 9)]), .call (.columns 3), .call (.query [(0, 5)]), .call (.columns 3), .generator (.euclidean 1, 0),
   .call (.query [(1, 1), (2, 0), (8, 3)]), .call (.series [(4, 4), (6, 1), (2, 2), (7, 5)]), .consumer c [3, 0], .call (.columns 2)]

noncomputable def exStreamActCalls {C : Type} (c : C) : List (Act GenKind C (Streaming.Op ℝ)) :=
  [.generator (.euclidean 2) 1, .consumer c [0], .call [0] (.columns (fun _ => false) (.float (.fin (1 / 3)))), .generator (.znorm 0 (3 / 2)) 0,
   .generator (.znorm (1 / 10) 1) 1, .call [0] (.series (.d2 [[.fin 1, .fin 5, .fin 2, .fin 8, .fin 3], [.fin 2, .fin 0, .fin 7, .fin 1, .fin 3]] 5)),
   .call [0] (.query (.d2 [[.fin 4, .fin 4, .fin 7], [.fin 1, .fin 6, .fin 2]] 3)), .consumer c [2], .call [0, 2] (.columns (fun c => c == 1) (.float (.fin 1))),
   .again 0 [2, 1], .call [1, 2] (.series (.d1 [.fin 9, .fin 9])), .call [1, 2] (.columns (fun _ => false) (.int 3)), .call [2, 1] (.query (.d1 [.fin 0, .fin 5])),
   .call [1, 2] (.columns (fun _ => true) (.int 3)), .generator (.euclidean 1) 0, .call [1, 2] (.query (.d2 [[.fin 1, .fin 2, .fin 8], [.fin 1, .fin 0, .fin 3]] 3)),
   .call [1, 2] (.series (.d2 [[.fin 4, .fin 6, .fin 2, .fin 7], [.fin 4, .fin 1, .fin 2, .fin 5]] 4)), .consumer c [3, 0],
   .call [3, 0, 1, 2] (.columns (fun _ => false) (.int 2))]

theorem exStreamActs_args {C : Type} (c : C) : StreamArgs 2 4 (some 3) 2 none (SAct.gens (exStreamActs c)) [] [] := by
  refine ⟨by decide, by decide, by simp, by simp, ?_, ?_, by simp, by decide, by simp⟩
  · simp [SAct.gens, exStreamActs, GenKind.ScaleOk]; norm_num
  · simp [SAct.gens, exStreamActs]

theorem exStreamActs_calls {C : Type} (c : C) : AreActs (fun u op => u.step 2 4 (some 3) op) (IsStreamCall exChan 2 4 (some 3) 2 (SAct.gens (exStreamActs c)))
    (fun _ => True) 0 [] MSt.init (exStreamActs c) (exStreamActCalls c) := by
  have hok := exStreamCase_ok (idss := [[0], [2]]) (by simp) (by simp) (by simp)
  obtain ⟨c1, c2, c3, c4, c5, c6, c7, c8, -⟩ := hok.calls
  obtain ⟨v1, v2, v3, v4, v5, v6, v7, v8, -⟩ := hok.valid
  have key : ∀ s q : List (ℤ × ℤ), ∀ g ∈ SAct.gens (exStreamActs c), g.1.Good 2 (lastN 4 (s.map (exChan g.2))) (lastN 3 (q.map (exChan g.2))) := by
    intro s q g hg
    simp only [SAct.gens, exStreamActs, List.mem_cons, List.not_mem_nil, or_false] at hg
    rcases hg with rfl | rfl | rfl | rfl
    · refine noTiny_int _ _ _ ?_ ?_ <;>
      · intro x hx
        obtain ⟨z, -, rfl⟩ := List.mem_map.mp (List.mem_of_mem_drop (by simpa [lastN] using hx))
        exact ⟨z.2, by simp [exChan]⟩
    · trivial
    · trivial
    · refine noTiny_int _ _ _ ?_ ?_ <;>
      · intro x hx
        obtain ⟨z, -, rfl⟩ := List.mem_map.mp (List.mem_of_mem_drop (by simpa [lastN] using hx))
        exact ⟨z.1, by simp [exChan]⟩
  refine ⟨trivial, rfl, rfl, rfl, rfl, ⟨c1, v1, fun _ _ => key _ _⟩, by simp, by simp, by simp, trivial, rfl, by simp, trivial, rfl, by simp,
    ⟨c2, v2, fun _ _ => key _ _⟩, by simp, by simp, by simp, ⟨c3, v3, fun _ _ => key _ _⟩, by simp, by simp, by simp, rfl, rfl,
    ⟨c4, v4, fun _ _ => key _ _⟩, by simp, by simp, by simp, rfl, rfl, by simp,
    ⟨c5, v5, fun _ _ => key _ _⟩, by simp, ?_, by simp, ⟨c6, v6, fun _ _ => key _ _⟩, by simp, ?_, by simp, ⟨c7, v7, fun _ _ => key _ _⟩, by simp, ?_, by simp,
    ⟨c8, v8, fun _ _ => key _ _⟩, by simp, ?_, by simp, trivial, rfl, rfl, ⟨.inl ?_, ?_, fun _ _ => key _ _⟩, by simp, ?_, by simp,
    ⟨.inl ?_, ?_, fun _ _ => key _ _⟩, by simp, ?_, by simp, rfl, rfl, ⟨⟨2, .inl rfl, by simp, .inl rfl⟩, ?_, fun _ _ => key _ _⟩, by simp, ?_, by simp, trivial⟩
  on_goal 5 => simp [exChan, List.range_succ]
  on_goal 5 => simp [MSt.Valid]
  on_goal 6 => simp [exChan, List.range_succ]
  on_goal 6 => simp [MSt.Valid]
  on_goal 7 => simp [MSt.Valid, MSt.step, MSt.init]
  all_goals
    intro id
    simp
    omega

theorem exStreamActs_filled {C : Type} (c : C) : CaughtUp 2 4 (some 3) [] MSt.init (exStreamActs c) := by
  simp [CaughtUp, exStreamActs, Filled, MSt.step, MSt.init]

/-- The calls the three consumers have noted: the first since it was added again, for two generators, the others since they were added. -/
example : ∃ a b d, streamSession (recorder (GenKind.ops exStreamCase.memE exStreamCase.memZ)) (fun k => k.streaming exStreamCase.memE exStreamCase.memZ) 2 4 (some 3) 2 none
      (exStreamActCalls []) = .ok [(a, [2, 1]), (b, [2]), (d, [3, 0])] ∧
    a.map (fun e => match e with
      | .column c v => (c, v.map List.length) | .diagonal d _ => (d, [77]) | .shiftSeries n => (n, [1000]) | .shiftQuery n => (n, [2000])) =
      [(1, [1000]), (0, [2, 2]), (1, [2, 2]), (2, [2, 2]), (1, [2000]), (3, [2000]), (4, [1000]), (0, [2, 2]), (1, [2, 2])] ∧
    b.map (fun e => match e with
      | .column c v => (c, v.map List.length) | .diagonal d _ => (d, [77]) | .shiftSeries n => (n, [1000]) | .shiftQuery n => (n, [2000])) =
      [(0, [2]), (1, [1000]), (0, [2]), (1, [2]), (2, [2]), (1, [2000]), (3, [2000]), (4, [1000]), (0, [2]), (1, [2])] ∧
    d = [.column 0 [[.fin √25, .fin √8], [.fin √10, .fin √20]], .column 1 [[.fin √25, .fin √52], [.fin √4, .fin √2]]] := by
  have hok := exStreamCase_ok (idss := [[0], [2]]) (by simp) (by simp) (by simp)
  obtain ⟨cons, h1, h2⟩ := C90_stream_recorded_partial exStreamCase.memE hok.memE exStreamCase.memZ hok.memZ exChan 2 4 (some 3) 2 none
    (exStreamActs []) (exStreamActCalls []) (exStreamActs_args []) (exStreamActs_calls []) (exStreamActs_filled [])
  obtain ⟨⟨a, ia⟩, l, ⟨y, e1, e2, e3⟩, h3, rfl⟩ := List.forall₂_cons_left_iff.mp h2
  obtain ⟨⟨b, ib⟩, l, ⟨z, f1, f2, f3⟩, h4, rfl⟩ := List.forall₂_cons_left_iff.mp h3
  obtain ⟨⟨d, id⟩, l, ⟨w, g1, g2, g3⟩, h5, rfl⟩ := List.forall₂_cons_left_iff.mp h4
  obtain rfl := List.forall₂_nil_left_iff.mp h5
  cases Option.some.inj e1
  cases Option.some.inj f1
  cases Option.some.inj g1
  dsimp only at e2 e3 f2 f3 g2 g3
  subst e2 f2 e3 f3 g2 g3
  refine ⟨_, _, _, h1, rfl, rfl, ?_⟩
  clear h1 h2 h3 h4 h5 e1 f1 g1 hok
  set Δ := streamDist exChan 2 (SAct.gens (exStreamActs ([] : List (CEvent ℝ)))) with hΔ
  have key : ∀ u v : ℤ × ℤ, ∀ x y : ℤ × ℤ, Δ 3 [u, v] [x, y] = .fin √((((u.1 - x.1) ^ 2 + (v.1 - y.1) ^ 2 : ℤ)) : ℝ) ∧
      Δ 0 [u, v] [x, y] = .fin √((((u.2 - x.2) ^ 2 + (v.2 - y.2) ^ 2 : ℤ)) : ℝ) := by
    intro u v x y
    simp [hΔ, streamDist, exStreamActs, SAct.gens, GenKind.dist, sqd, seqOf, exChan, Finset.sum_range_succ]
  refine Eq.trans (b := [CEvent.column 0 [[Δ 3 [(4, 4), (6, 1)] [(1, 1), (2, 0)], Δ 3 [(4, 4), (6, 1)] [(2, 0), (8, 3)]],
      [Δ 0 [(4, 4), (6, 1)] [(1, 1), (2, 0)], Δ 0 [(4, 4), (6, 1)] [(2, 0), (8, 3)]]],
    CEvent.column 1 [[Δ 3 [(6, 1), (2, 2)] [(1, 1), (2, 0)], Δ 3 [(6, 1), (2, 2)] [(2, 0), (8, 3)]],
      [Δ 0 [(6, 1), (2, 2)] [(1, 1), (2, 0)], Δ 0 [(6, 1), (2, 2)] [(2, 0), (8, 3)]]]]) rfl ?_
  simp only [(key _ _ _ _).1, (key _ _ _ _).2]
  norm_num

end Verif
