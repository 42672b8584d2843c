import Verif.Lemmas.CaseExamples
import Verif.Props.BatchContextual
import Verif.Props.MultiProfile

/-!
# C93: `ContextualMatrixProfile` in whole streaming calculations
-/

namespace Verif
open Spec
variable {α K M : Type}

/-! ### Contexts of a stream -/

/-- Contexts of a stream, and a context manager that follows them. `inQuery i x`: position `x` of the query stream is in query context `i`; `inSeries j x` the
same for the series. `moved s` is the number of series contexts that have been pushed out when `s` points have left the series window; `pos s t c`: the manager
may be `c` when `s` points have left the series window and `t` points the query window; `upto s t`: it can follow the stream so far. `qc`, `sc`: its ranges in
window positions. -/
structure Spec.CtxStream (M : Type) where
  nq : Nat
  ns : Nat
  inQuery : Int → Int → Prop
  inSeries : Int → Int → Prop
  moved : Nat → Nat
  pos : Nat → Nat → M → Prop
  upto : Nat → Nat → Prop
  qc : M → List Ctx
  sc : M → List Ctx

/-- The manager knows in every window of `h` rows and `w` columns which positions are in which context, query contexts keeping their numbers, and accepts shifts. -/
structure Spec.CtxStream.Follows (X : CtxStream M) (ops : CtxOps M) (h w : Nat) : Prop where
  looks : ∀ s t, CtxLooks ops X.qc X.sc X.nq X.ns (X.pos s t)
  query : ∀ s t c, X.pos s t c → ∀ i x : Int, 0 ≤ x → x < h → (InCtx (X.qc c) i x ↔ X.inQuery i (x + t))
  series : ∀ s t c, X.pos s t c → ∀ j x : Int, 0 ≤ x → x < w → (InCtx (X.sc c) j x ↔ X.inSeries (j + X.moved s) (x + s))
  mono : ∀ s n, X.moved s ≤ X.moved (s + n)
  shiftSeries : ∀ s t c, X.pos s t c → ∀ n > 0, X.upto (s + n) t →
    ∃ c', ops.shiftSeries c (n : Nat) = .ok (c', ((X.moved (s + n) - X.moved s : Nat) : Int)) ∧ X.pos (s + n) t c'
  shiftQuery : ∀ s t c, X.pos s t c → ∀ n > 0, X.upto s (t + n) → ∃ c' k, k ≤ 0 ∧ ops.shiftQuery c (n : Nat) = .ok (c', k) ∧ X.pos s (t + n) c'

/-! ### Any deliveries -/

/-- The calls covered. -/
def Spec.CtxStream.Call (X : CtxStream M) (h w : Nat) (t : Seen K) : Delivery K → Prop
  | .diag _ _ => False
  | .column c vals => c < w ∧ vals ≠ [] ∧ vals.length ≤ h ∧ Fl.nan ∉ vals ∧ ∀ m, X.pos t.ss t.qs m → Reaches (X.qc m) h vals.length
  | .shiftSeries n => 0 < n ∧ X.upto (t.ss + n) t.qs
  | .shiftQuery n => 0 < n ∧ X.upto t.ss (t.qs + n)

def Spec.CtxStream.Calls (X : CtxStream M) (h w : Nat) : Seen K → List (Delivery K) → Prop
  | _, [] => True
  | t, d :: ds => X.Call h w t d ∧ X.Calls h w (t.stepWith Delivery.cells d) ds

theorem Spec.CtxStream.calls_append (X : CtxStream M) (h w : Nat) (a b : List (Delivery K)) : ∀ t : Seen K, X.Calls h w t (a ++ b) ↔ X.Calls h w t a ∧ X.Calls h w (t.run a) b := by
  induction a with
  | nil => intro t; simp [CtxStream.Calls, Seen.run, Seen.runWith]
  | cons d a ih =>
    intro t
    rw [List.cons_append, CtxStream.Calls, CtxStream.Calls, ih, and_assoc]
    rfl

/-- The delivered cells of query context `i` and stream context `j`. -/
def Spec.CtxStream.seen (X : CtxStream M) (t : Seen K) (i j : Int) : Set (Cell K) := {x | x ∈ t.cells ∧ X.inQuery i x.row ∧ X.inSeries j x.col}

namespace CMP
variable [LinearOrder K] {ops : CtxOps M} {X : CtxStream M} {h w : Nat}

/-- If no piece holds a NaN, only the union of the pieces matters. -/
theorem Inv.union {p : CMP M K} {h w nq ns : Nat} {m : M} {qs ss : Nat} {P P' : Nat → Nat → Set (Set (Cell K))} (hp : p.Inv h w nq ns m qs ss P)
    (hc : ∀ i < nq, ∀ j < ns, (∀ s ∈ P i j, Clean s) ∧ ∀ s ∈ P' i j, Clean s)
    (he : ∀ i < nq, ∀ j < ns, ∀ x, (∃ s ∈ P i j, x ∈ s) ↔ ∃ s ∈ P' i j, x ∈ s) : p.Inv h w nq ns m qs ss P' := by
  obtain ⟨D, Q, S, g1, g2, g3, g4⟩ := hp.grids
  refine ⟨hp.h_eq, hp.w_eq, hp.ctxs, hp.qShift, hp.sShift, D, Q, S, g1, g2, g3, fun i hi j hj => ?_⟩
  have := g4 i hi j hj
  obtain ⟨c1, c2⟩ := hc i hi j hj
  refine ⟨this.number, fun s hs _ x hx => ?_, ?_⟩
  · obtain ⟨s', hs', hx'⟩ := (he i hi j hj x).mpr ⟨s, hs, hx⟩
    exact this.lower s' hs' (c1 s' hs') x hx'
  · rcases this.attained with h | ⟨h1, s, h2, -, h4⟩
    · exact .inl h
    · obtain ⟨s', hs', hx'⟩ := (he i hi j hj _).mp ⟨s, h2, h4⟩
      exact .inr ⟨h1, s', hs', c2 s' hs', hx'⟩

/-- The state belongs to what has been seen. -/
structure Follow (X : CtxStream M) (h w : Nat) (p : CMP M K) (t : Seen K) : Prop where
  inv : ∃ m, X.pos t.ss t.qs m ∧ p.Inv h w X.nq X.ns m t.qs t.ss (fun i j => {X.seen t i (j + X.moved t.ss)})
  clean : ∀ x ∈ t.cells, x.val ≠ .nan
  fresh : ∀ x ∈ t.cells, ∀ j : Int, X.inSeries j x.col → j < X.ns + X.moved t.ss

theorem Follow.deliver (hX : X.Follows ops h w) {p : CMP M K} {t : Seen K} (hp : Follow X h w p t) (d : Delivery K) (hd : X.Call h w t d) :
    ∃ p', p.deliver ops d = .ok p' ∧ Follow X h w p' (t.stepWith Delivery.cells d) := by
  obtain ⟨m, hm, hinv⟩ := hp.inv
  cases d with
  | diag d vals => exact hd.elim
  | column c vals =>
    obtain ⟨h1, h2, h3, h4, h5⟩ := hd
    have hmem : ∀ x : Cell K, x ∈ Delivery.cells t.ss t.qs (.column c vals) ↔ ∃ (k : Nat) (v : Fl K), vals[k]? = some v ∧ x = ⟨((k + t.qs : Nat) : Int), ((c + t.ss : Nat) : Int), v⟩ := by
      intro x
      simp only [Delivery.cells, List.mem_map, Prod.exists, List.mem_zipIdx_iff_getElem?]
      constructor
      · rintro ⟨v, k, hk, rfl⟩; exact ⟨k, v, hk, rfl⟩
      · rintro ⟨k, v, hk, rfl⟩; exact ⟨v, k, hk, rfl⟩
    have hnew : ∀ x ∈ Delivery.cells t.ss t.qs (.column c vals), x.val ≠ .nan := by
      intro x hx
      obtain ⟨k, v, hk, rfl⟩ := (hmem x).mp hx
      exact fun he => h4 (he ▸ List.mem_of_getElem? hk)
    have hin : ∀ x ∈ Delivery.cells t.ss t.qs (.column c vals), ∀ i j : Int,
        ((∃ c0 ∈ X.qc m, c0.id = i ∧ c0.start ≤ x.row - t.qs ∧ x.row - t.qs < c0.stop) ↔ X.inQuery i x.row) ∧
        ((∃ c1 ∈ X.sc m, c1.id = j ∧ c1.start ≤ x.col - t.ss ∧ x.col - t.ss < c1.stop) ↔ X.inSeries (j + X.moved t.ss) x.col) := by
      intro x hx i j
      obtain ⟨k, v, hk, rfl⟩ := (hmem x).mp hx
      have hk' := (List.getElem?_eq_some_iff.mp hk).1
      have e1 := hX.query _ _ m hm i k (by omega) (by omega)
      have e2 := hX.series _ _ m hm j c (by omega) (by omega)
      simp only [Nat.cast_add, add_sub_cancel_right] at e1 e2 ⊢
      exact ⟨e1, e2⟩
    obtain ⟨p', e1, e2⟩ := processColumn_inv (hX.looks t.ss t.qs) h w m hm t.qs t.ss c vals h2 h3 (h5 m hm) p _ hinv
    refine ⟨p', e1, ⟨m, hm, e2.union ?_ ?_⟩, ?_, ?_⟩
    · refine fun i _ j _ => ⟨?_, ?_⟩
      · rintro s (hs | ⟨c0, -, c1, -, -, -, rfl⟩)
        · obtain rfl : s = _ := hs
          exact fun x hx => hp.clean x hx.1
        · exact fun x hx => hnew x hx.1
      · intro s hs x hx
        obtain rfl : s = _ := hs
        rcases List.mem_append.mp hx.1 with h | h
        · exact hp.clean x h
        · exact hnew x h
    · intro i _ j _ x
      constructor
      · rintro ⟨s, hs | ⟨c0, a1, c1, a2, a3, a4, rfl⟩, hx⟩
        · obtain rfl : s = _ := hs
          exact ⟨_, rfl, List.mem_append_left _ hx.1, hx.2⟩
        · refine ⟨_, rfl, List.mem_append_right _ hx.1, ?_, ?_⟩
          · exact (hin x hx.1 i j).1.mp ⟨c0, a1, a3.symm, hx.2.1⟩
          · exact (hin x hx.1 i j).2.mp ⟨c1, a2, a4.symm, hx.2.2⟩
      · rintro ⟨s, hs, hx⟩
        obtain rfl : s = _ := hs
        obtain ⟨b1, b2, b3⟩ := hx
        rcases List.mem_append.mp b1 with b1 | b1
        · exact ⟨_, .inl rfl, b1, b2, b3⟩
        · obtain ⟨c0, a1, a2, a3⟩ := (hin x b1 i j).1.mpr b2
          obtain ⟨c1, a4, a5, a6⟩ := (hin x b1 i j).2.mpr b3
          exact ⟨_, .inr ⟨c0, a1, c1, a4, a2.symm, a5.symm, rfl⟩, b1, a3, a6⟩
    · intro x hx
      rcases List.mem_append.mp hx with h | h
      · exact hp.clean x h
      · exact hnew x h
    · intro x hx j hj
      rcases List.mem_append.mp hx with h | h
      · exact hp.fresh x h j hj
      · obtain ⟨c1, a1, a2, -⟩ := (hin x h 0 (j - X.moved t.ss)).2.mpr (by rwa [sub_add_cancel])
        have := ((hX.looks t.ss t.qs).sbound m hm c1 a1).2
        show j < X.ns + X.moved t.ss
        omega
  | shiftSeries n =>
    obtain ⟨m', e, hm'⟩ := hX.shiftSeries _ _ m hm n hd.1 hd.2
    obtain ⟨p', e1, e2, -⟩ := shiftSeries_inv hinv n m' _ e
    have hmono := hX.mono t.ss n
    refine ⟨p', e1, ⟨m', hm', e2.union ?_ ?_⟩, hp.clean, ?_⟩
    · refine fun i _ j _ => ⟨?_, ?_⟩
      · intro s hs
        split at hs
        · obtain rfl : s = _ := hs
          exact fun x hx => hp.clean x hx.1
        · exact hs.elim
      · intro s hs x hx
        obtain rfl : s = _ := hs
        exact hp.clean x hx.1
    · intro i _ j _ x
      have ek : ∀ j : Nat, (((j + (((X.moved (t.ss + n) - X.moved t.ss : Nat) : Int)).toNat : Nat) : Int)) + X.moved t.ss = j + X.moved (t.ss + n) := by
        intro j; omega
      split
      · rw [ek]; rfl
      · rename_i hge
        refine ⟨fun ⟨s, hs, _⟩ => hs.elim, ?_⟩
        rintro ⟨s, hs, hx⟩
        obtain rfl : s = _ := hs
        have := hp.fresh x hx.1 _ hx.2.2
        simp only [Seen.stepWith] at this
        omega
    · intro x hx j hj
      have := hp.fresh x hx j hj
      show j < X.ns + X.moved (t.ss + n)
      omega
  | shiftQuery n =>
    obtain ⟨m', k, hk, e, hm'⟩ := hX.shiftQuery _ _ m hm n hd.1 hd.2
    obtain ⟨p', e1, e2⟩ := shiftQuery_inv hinv n m' k hk e
    exact ⟨p', e1, ⟨m', hm', e2⟩, hp.clean, hp.fresh⟩

theorem Follow.run (hX : X.Follows ops h w) : ∀ (ds : List (Delivery K)) (p : CMP M K) (t : Seen K), Follow X h w p t → X.Calls h w t ds →
    ∃ p', p.run ops ds = .ok p' ∧ Follow X h w p' (t.run ds)
  | [], p, t, hp, _ => ⟨p, rfl, hp⟩
  | d :: ds, p, t, hp, hd => by
    obtain ⟨p1, h1, h2⟩ := hp.deliver hX d hd.1
    obtain ⟨p2, h3, h4⟩ := Follow.run hX ds p1 _ h2 hd.2
    refine ⟨p2, ?_, h4⟩
    rw [CMP.run, List.foldlM_cons, h1]
    exact h3

end CMP

/-! ### Whole calculations -/

/-- Does `calculate_columns(upto)` calculate a column? -/
def Spec.MSt.More (m N : Nat) (u : MSt α) (upto : Int) : Prop := u.next - (u.s.length - N) < min upto.toNat ((lastN N u.s).length + 1 - m)

/-- The deliveries of a streaming calculation are covered. -/
theorem calls_stream {X : CtxStream M} {m N : Nat} {Mq : Option Nat} {b : Int} {D : List α → List α → Fl K} (hm0 : 0 < m) (hD : ∀ x y, D x y ≠ .nan)
    (hN : m ≤ N) (hM : ∀ M', Mq = some M' → m ≤ M') (us : List (MOp α)) : ∀ (u : MSt α) (t : Seen K), SeenFits m N Mq b D u t → u.All m N Mq (fun u op => u.Valid m Mq op) us →
    u.All m N Mq (fun u op => ∀ k, op = .columns k → u.More m N k → ∀ c, X.pos (u.s.length - N) (u.q.length - Mq.getD N) c →
      Reaches (X.qc c) (Mq.getD N + 1 - m) ((lastN (Mq.getD N) u.q).length + 1 - m)) us →
    (∀ s ≤ (u.run m N Mq us).s.length - N, ∀ t ≤ (u.run m N Mq us).q.length - Mq.getD N, X.upto s t) →
    X.Calls (Mq.getD N + 1 - m) (N + 1 - m) t (MSt.allDeliveries m N Mq b D u us) := by
  have grow : ∀ (us : List (MOp α)) (u : MSt α), u.s.length ≤ (u.run m N Mq us).s.length ∧ u.q.length ≤ (u.run m N Mq us).q.length := by
    intro us
    induction us with
    | nil => intro u; exact ⟨le_refl _, le_refl _⟩
    | cons x us ih =>
      intro u
      have := ih (u.step m N Mq x)
      have h2 : u.s.length ≤ (u.step m N Mq x).s.length ∧ u.q.length ≤ (u.step m N Mq x).q.length := by
        cases x with
        | series v =>
          simp only [MSt.step]
          split <;> simp
        | query v => simp [MSt.step]
        | columns k => simp [MSt.step]
      exact ⟨h2.1.trans this.1, h2.2.trans this.2⟩
  induction us with
  | nil => intro u t _ _ _ _; trivial
  | cons x us ih =>
    intro u t hf hv hr hup
    rw [MSt.allDeliveries, CtxStream.calls_append]
    refine ⟨?_, ih _ _ (hf.step hm0 x hv.1) hv.2 hr.2 hup⟩
    have hg := grow us (u.step m N Mq x)
    have hup' : ∀ s ≤ (u.step m N Mq x).s.length - N, ∀ t ≤ (u.step m N Mq x).q.length - Mq.getD N, X.upto s t :=
      fun s hs t ht => hup s (hs.trans (Nat.sub_le_sub_right hg.1 _)) t (ht.trans (Nat.sub_le_sub_right hg.2 _))
    have e1 := hf.ss
    have e2 := hf.qs
    cases x with
    | series v =>
      simp only [MSt.deliveries]
      split
      · trivial
      · rename_i hk
        have hk' : 0 < moved N u.s.length v.length := Nat.pos_of_ne_zero hk
        have hk2 : t.ss + moved N u.s.length v.length ≤ (u.step m N Mq (.series v)).s.length - N := by
          simp only [MSt.step, List.length_append, moved] at hk' ⊢
          omega
        refine ⟨⟨hk', hup' _ hk2 _ ?_⟩, ?_⟩
        · rw [e2]
          refine Nat.sub_le_sub_right ?_ _
          simp only [MSt.step]
          split <;> simp
        · cases Mq with
          | some _ => trivial
          | none =>
            refine ⟨⟨hk', hup' _ hk2 _ ?_⟩, trivial⟩
            have := congrArg List.length (hf.self rfl)
            simp only [Seen.stepWith, MSt.step, List.length_append, moved, Option.isNone_none, if_true, Option.getD_none] at hk' e2 ⊢
            omega
    | query v =>
      simp only [MSt.deliveries]
      split
      · trivial
      · rename_i hk
        have hk' : 0 < moved (Mq.getD N) u.q.length v.length := Nat.pos_of_ne_zero hk
        refine ⟨⟨hk', hup' _ (by simp only [MSt.step]; omega) _ ?_⟩, trivial⟩
        simp only [MSt.step, List.length_append, moved] at hk' ⊢
        omega
    | columns k =>
      simp only [MSt.deliveries]
      have hval : m ≤ u.s.length → m ≤ u.q.length := hv.1
      have hMm : m ≤ Mq.getD N := by
        cases Mq with
        | none => exact hN
        | some M' => exact hM M' rfl
      have hlen := lastN_length (Mq.getD N) u.q
      have hlen' := lastN_length N u.s
      have main : ∀ (l : List Nat) (t' : Seen K), t'.ss = t.ss → t'.qs = t.qs →
          (∀ i ∈ l, i < min k.toNat ((lastN N u.s).length + 1 - m) - (u.next - (u.s.length - N))) →
          X.Calls (Mq.getD N + 1 - m) (N + 1 - m) t' (l.map fun i => .column (u.next - (u.s.length - N) + i)
            ((List.range ((lastN (Mq.getD N) u.q).length + 1 - m)).map fun r => u.cell D m b (r + (u.q.length - Mq.getD N)) (u.next - (u.s.length - N) + i + (u.s.length - N)))) := by
        intro l
        induction l with
        | nil => intro t' _ _ _; trivial
        | cons i l ihl =>
          intro t' h1 h2 hl
          have hi := hl i (by simp)
          refine ⟨⟨by omega, ?_, ?_, ?_, ?_⟩, ihl _ h1 h2 fun i hi => hl i (by simp [hi])⟩
          · have : 0 < (lastN (Mq.getD N) u.q).length + 1 - m := by
              have := hval (by omega)
              omega
            intro he
            have := congrArg List.length he
            simp only [List.length_map, List.length_range, List.length_nil] at this
            omega
          · simp only [List.length_map, List.length_range]; omega
          · intro hm
            obtain ⟨r, -, hr⟩ := List.mem_map.mp hm
            unfold MSt.cell at hr
            split at hr
            · cases hr
            · exact hD _ _ hr
          · intro c hc
            rw [h1, h2, e1, e2] at hc
            simp only [List.length_map, List.length_range]
            exact hr.1 k rfl (by unfold MSt.More; omega) c hc
      exact main _ t rfl rfl fun i hi => List.mem_range.mp hi

/-- A new consumer with a manager at the begin of the stream; the manager can follow the stream until the end; whenever a column is calculated the query has a
subsequence in every query range that meets the window. -/
structure Spec.CtxStream.Fits (X : CtxStream M) (ops : CtxOps M) (m N : Nat) (Mq : Option Nat) (us : List (MOp α)) (o : CMPObj M ℝ) : Prop where
  follows : X.Follows ops (Mq.getD N + 1 - m) (N + 1 - m)
  start : X.pos 0 0 o.ctxs
  new : o.st = none
  some : 0 < X.ns
  scale1 : 1 ≤ o.scale
  scale2 : o.scale ≤ 2
  memD : o.memD.length = RB.capacity o.scale X.ns
  memS : o.memS.length = RB.capacity o.scale X.ns
  memQ : o.memQ.length = RB.capacity o.scale X.ns
  upto : ∀ s ≤ (MSt.init.run m N Mq us).s.length - N, ∀ t ≤ (MSt.init.run m N Mq us).q.length - Mq.getD N, X.upto s t
  reach : MSt.init.All m N Mq (fun u op => ∀ k, op = .columns k → u.More m N k → ∀ c, X.pos (u.s.length - N) (u.q.length - Mq.getD N) c →
      Reaches (X.qc c) (Mq.getD N + 1 - m) ((lastN (Mq.getD N) u.q).length + 1 - m)) us

/-- A new `ContextualMatrixProfile` that receives the calls of a streaming calculation. -/
theorem CMP.stream_fed (gops : GenOps G ℝ) {X : CtxStream M} {ops : CtxOps M} {m N : Nat} {Mq : Option Nat} {us : List (MOp α)} {o : CMPObj M ℝ}
    (hc : X.Fits ops m N Mq us o) {b : Int} {D : List α → List α → Fl ℝ} (hm0 : 0 < m) (hD : ∀ x y, D x y ≠ .nan)
    (hN : m ≤ N) (hM : ∀ M', Mq = some M' → m ≤ M') (hv : MSt.init.All m N Mq (fun u op => u.Valid m Mq op) us) (n : Nat) :
    ∃ p0 p', (CMP.ops ops gops).initialise o n (Mq.getD N + 1 - m : Nat) (N + 1 - m : Nat) = .ok p0 ∧
      feed (CMP.ops ops gops) p0 ((MSt.allDeliveries m N Mq b D MSt.init us).map Delivery.event) = .ok p' ∧
      ∃ p V Q J, p'.st = some p ∧ p.Holds X.nq X.ns V Q J ∧ ∀ i < X.nq, ∀ j < X.ns,
        IsCtxMin ((MSt.init.run m N Mq us).cell D m b) (MSt.init.run m N Mq us).done (fun r => X.inQuery (i : Nat) r)
          (fun c => X.inSeries ((j + X.moved ((MSt.init.run m N Mq us).s.length - N) : Nat) : Int) c) (V i j) (Q i j) (J i j) := by
  obtain ⟨p, e1, e2⟩ := CMP.initialise_rep (K := ℝ) (hc.follows.looks 0 0) o.ctxs hc.start hc.some (Mq.getD N + 1 - m) (N + 1 - m) o.scale hc.scale1 hc.scale2 o.memD o.memS o.memQ
    hc.memD hc.memS hc.memQ
  have hp0 : CMP.Follow X (Mq.getD N + 1 - m) (N + 1 - m) p (Seen.init : Seen ℝ) := by
    refine ⟨⟨o.ctxs, hc.start, e2.inv.union ?_ ?_⟩, by simp [Seen.init], by simp [Seen.init]⟩
    · refine fun i _ j _ => ⟨fun s hs => hs.elim, fun s hs x hx => ?_⟩
      obtain rfl : s = _ := hs
      exact absurd hx.1 (by simp [Seen.init])
    · refine fun i _ j _ x => ⟨fun ⟨s, hs, _⟩ => hs.elim, ?_⟩
      rintro ⟨s, hs, hx⟩
      obtain rfl : s = _ := hs
      exact absurd hx.1 (by simp [Seen.init])
  have hcalls : X.Calls (Mq.getD N + 1 - m) (N + 1 - m) Seen.init (MSt.allDeliveries m N Mq b D MSt.init us) :=
    calls_stream hm0 hD hN hM us MSt.init Seen.init (SeenFits.init _ _ _ _ _) hv hc.reach hc.upto
  obtain ⟨p', f1, f2⟩ := CMP.Follow.run hc.follows _ p Seen.init hp0 hcalls
  obtain ⟨V, Q, J, g1, g2, g3, g4⟩ := f2.inv.choose_spec.2.grids
  have hfit : SeenFits m N Mq b D (MSt.init.run m N Mq us) (Seen.init.run (MSt.allDeliveries m N Mq b D MSt.init us)) :=
    SeenFits.run hm0 us MSt.init Seen.init (SeenFits.init _ _ _ _ _) hv
  refine ⟨{ o with st := some p }, { o with st := some p' }, ?_, ?_, p', V, Q, J, rfl, ⟨g1.items, g2.items, g3.items⟩, fun i hi j hj => ?_⟩
  · show CMPObj.initialise ops o _ _ = _
    unfold CMPObj.initialise
    rw [hc.new]
    show (CMP.initialise ops o.ctxs o.scale _ _ o.memD o.memS o.memQ).map _ = _
    rw [e1]; rfl
  · rw [CMP.feed_eq ops _ _ _ p rfl, f1]; rfl
  have hmin := g4 i hi j hj
  rw [hfit.ss] at hmin
  refine ⟨fun r c hd hq hs => ?_, ?_⟩
  · have hx := (hfit.mem _).mpr ⟨r, c, hd, rfl⟩
    exact hmin.lower _ rfl (fun x hx => f2.clean x hx.1) _ ⟨hx, hq, by exact_mod_cast hs⟩
  · rcases hmin.attained with h | ⟨hlt, s, hs, -, hx⟩
    · exact .inl h
    · right
      obtain rfl : s = _ := hs
      obtain ⟨r, c, hd, e⟩ := (hfit.mem _).mp hx.1
      simp only [Cell.mk.injEq] at e
      have hq := hx.2.1
      have hs := hx.2.2
      simp only [e.1, e.2.1] at hq hs
      exact ⟨r, c, hd, hq, by exact_mod_cast hs, e.2.2, hlt, e.1, e.2.1⟩

/-- `v` is the smallest distance among the pairs calculated so far with row in query context `i` and column in series context `j` of the streams, (`a`, `b`) its
position in the streams; `+inf`, -1, -1 if there is none. -/
structure StreamCase.IsContextMin (S : StreamCase α) (id : Nat) (X : CtxStream M) (i j : Int) (v : Fl ℝ) (a b : Int) : Prop where
  lower : ∀ r c : Nat, S.done r c → X.inQuery i r → X.inSeries j c → v ≤ .fin (S.dist id r c)
  attained : (v = .pinf ∧ a = -1 ∧ b = -1) ∨
    ∃ r c : Nat, S.done r c ∧ X.inQuery i r ∧ X.inSeries j c ∧ v = .fin (S.dist id r c) ∧ a = (r : Int) ∧ b = (c : Int)

/-- `CtxStream.Fits` for a streaming case. -/
def StreamCase.CtxOk (S : StreamCase α) (ops : CtxOps M) (X : CtxStream M) (o : CMPObj M ℝ) : Prop := X.Fits ops S.m S.N S.M S.us o

/-- **C93.** `ContextualMatrixProfile` consumers of a `StreamingCalculator`, each with a context manager that follows contexts of the streams, query contexts keeping
their numbers: after any sequence of `append_series`, `append_query` and (possibly interrupted) `calculate_columns` calls no call has raised, and entry (`i`, `j`) of
the contextual matrix is the smallest distance among all pairs calculated so far (also those that have left the windows) of query context `i` and the series context
that now has number `j`, with the positions in the streams of such a pair; `+inf` and -1 if there is none. Partial: query contexts that change their numbers go wrong
(`C93_query_wrong`), columns that do not reach a query context raise (`C93_unfilled_raises`); Euclidean generators as in `C62_euclidean_nan`. -/
theorem C93_contextual_partial (S : StreamCase α) (ops : CtxOps M) (cs : List (CtxStream M × CMPObj M ℝ × Nat)) (hcs : ∀ c ∈ cs, S.CtxOk ops c.1 c.2.1)
    (hS : S.Ok (cs.map fun c => [c.2.2])) :
    ∃ cons', S.result (CMP.ops ops) (cs.map fun c => (c.2.1, [c.2.2])) = .ok cons' ∧
      List.Forall₂ (fun (c : CtxStream M × CMPObj M ℝ × Nat) (o : CMPObj M ℝ × List Nat) => o.2 = [c.2.2] ∧ ∃ p D Q J, o.1.st = some p ∧ p.Holds c.1.nq c.1.ns D Q J ∧
        ∀ i < c.1.nq, ∀ j < c.1.ns, S.IsContextMin c.2.2 c.1 i (j + c.1.moved (S.last.s.length - S.N) : Nat) (D i j) (Q i j) (J i j)) cs cons' := by
  refine StreamCase.consumersOf (S := S) (CMP.ops ops) (fun _ => rfl) cs (fun c => (c.2.1, [c.2.2])) hS (fun c o =>
      ∃ p D Q J, o.st = some p ∧ p.Holds c.1.nq c.1.ns D Q J ∧
        ∀ i < c.1.nq, ∀ j < c.1.ns, S.IsContextMin c.2.2 c.1 i (j + c.1.moved (S.last.s.length - S.N) : Nat) (D i j) (Q i j) (J i j)) ?_
  rintro ⟨X, o, id⟩ hm
  have hc : S.CtxOk ops X o := hcs _ hm
  have hid : id < S.kinds.length := hS.id_lt (List.mem_map_of_mem (f := fun c : CtxStream M × CMPObj M ℝ × Nat => [c.2.2]) hm) (by simp)
  obtain ⟨p0, p', e1, e2, p, D, Q, J, e3, e4, e5⟩ := CMP.stream_fed (GenKind.ops S.memE S.memZ) (D := streamDist S.π S.m S.kinds id) (b := S.b) hc hS.args.pos
    (streamDist_ne_nan S.π S.m S.kinds id hid) hS.args.series hS.args.query hS.valid 1
  have hval : ∀ r c : Nat, S.done r c → S.value id r c = .fin (S.dist id r c) := by
    intro r c hd
    unfold StreamCase.value MSt.cell
    rw [if_neg hd.2, streamDist_value _ _ _ _ hid]
    rfl
  refine ⟨p0, p', e1, by rw [StreamCase.events_single]; exact e2, p, D, Q, J, e3, e4, fun i hi j hj => ⟨fun r c hd hq hs => ?_, ?_⟩⟩
  · rw [← hval r c hd]
    exact (e5 i hi j hj).lower r c hd.1 hq hs
  · rcases (e5 i hi j hj).attained with h | ⟨r, c, hd, hq, hs, hv, hlt, ha, hb⟩
    · exact .inl h
    · have hfar : S.done r c := by
        refine ⟨hd, fun hb => ?_⟩
        have : S.last.cell (streamDist S.π S.m S.kinds id) S.m S.b r c = .pinf := by unfold MSt.cell; rw [if_pos hb]
        rw [hv] at hlt
        exact absurd (hlt.trans_eq this.symm) (lt_irrefl _)
      exact .inr ⟨r, c, hfar, hq, hs, hv.trans (hval r c hfar), ha, hb⟩

/-! ### Contexts of equal length -/

/-- A streaming context manager for contexts of `L` points each (days, say), the query being one context. Not a class of the repository (which has no streaming
manager); an implementation of `AbstractContextManager`. Its state is the number of points that have left the series window. -/
def chunkMgr (L h w : Nat) : CtxOps Nat :=
  { queryContexts := fun _ a b => .ok (([⟨0, h, 0⟩] : List Ctx).filter fun c => decide (c.start < b) && decide (a < c.stop))
    seriesContexts := fun s a b => .ok (((List.range (w / L + 2)).map fun j : Nat => (⟨(j * L : Nat) - (s % L : Nat), (j * L + L : Nat) - (s % L : Nat), j⟩ : Ctx)).filter
      fun c => decide (c.start < b) && decide (a < c.stop))
    shape := fun _ => .ok (1, (w / L + 2 : Nat))
    shiftQuery := fun s _ => .ok (s, 0)
    shiftSeries := fun s n => .ok (s + n.toNat, ((s + n.toNat) / L : Nat) - (s / L : Nat)) }

/-- The contexts that it follows: series context `j` consists of the positions from `j * L` to `j * L + L - 1`, query context 0 of all positions. -/
def chunkStream (L h w : Nat) : CtxStream Nat where
  nq := 1
  ns := w / L + 2
  inQuery := fun i x => i = 0 ∧ 0 ≤ x
  inSeries := fun j x => j * L ≤ x ∧ x < j * L + L
  moved := fun s => s / L
  pos := fun s _ c => c = s
  upto := fun _ _ => True
  qc := fun _ => [⟨0, h, 0⟩]
  sc := fun s => (List.range (w / L + 2)).map fun j : Nat => (⟨(j * L : Nat) - (s % L : Nat), (j * L + L : Nat) - (s % L : Nat), j⟩ : Ctx)

theorem filter_overlaps (l : List Ctx) (hl : ∀ c ∈ l, c.start < c.stop) (a b : Int) (hab : a < b) (c : Ctx) :
    (c ∈ l.filter fun c => decide (c.start < b) && decide (a < c.stop)) ↔ c ∈ l ∧ Overlaps c a b := by
  simp only [List.mem_filter, Bool.and_eq_true, decide_eq_true_eq]
  refine and_congr_right fun hc => ⟨fun ⟨h1, h2⟩ => ?_, fun ⟨x, h⟩ => by omega⟩
  have := hl c hc
  by_cases h : a ≤ c.start
  · exact ⟨c.start, by omega⟩
  · exact ⟨a, by omega⟩

theorem chunk_follows (L h w : Nat) (hL : 0 < L) (hh : 0 < h) : (chunkStream L h w).Follows (chunkMgr L h w) h w := by
  have hq : ∀ c ∈ ([⟨0, h, 0⟩] : List Ctx), c.start < c.stop := by
    intro c hc
    rw [List.mem_singleton] at hc
    subst hc
    simpa using hh
  have hsl : ∀ (s : Nat), ∀ c ∈ (chunkStream L h w).sc s, ∃ j < w / L + 2, c = ⟨(j * L : Nat) - (s % L : Nat), (j * L + L : Nat) - (s % L : Nat), j⟩ := by
    intro s c hc
    obtain ⟨j, hj, rfl⟩ := List.mem_map.mp hc
    exact ⟨j, List.mem_range.mp hj, rfl⟩
  refine ⟨fun s t => ⟨?_, ?_, ?_, ?_, ?_⟩, ?_, ?_, ?_, ?_, ?_⟩
  · rintro c -; rfl
  · rintro c - a b hab
    exact ⟨_, rfl, filter_overlaps _ hq a b hab⟩
  · rintro c - a b hab
    refine ⟨_, rfl, filter_overlaps _ (fun x hx => ?_) a b hab⟩
    obtain ⟨j, -, rfl⟩ := hsl c x hx
    simp only
    omega
  · rintro c - x hx
    rw [show (chunkStream L h w).qc c = [⟨0, h, 0⟩] from rfl, List.mem_singleton] at hx
    subst hx
    exact ⟨le_refl _, le_refl _, by simp [chunkStream]⟩
  · rintro c - x hx
    obtain ⟨j, hj, rfl⟩ := hsl c x hx
    show (0 : Int) ≤ j ∧ (j : Int) < (w / L + 2 : Nat)
    omega
  · rintro s t c - i x h0 h1
    simp only [InCtx, chunkStream, List.mem_singleton, exists_eq_left]
    omega
  · rintro s t c rfl j x h0 h1
    have hmod := Nat.mod_lt c hL
    have hdm : ((L * (c / L) : Nat) : Int) + (c % L : Nat) = c := by exact_mod_cast Nat.div_add_mod c L
    have hdm' : (c / L : Nat) * (L : Int) = ((L * (c / L) : Nat) : Int) := by push_cast; ring
    constructor
    · rintro ⟨y, hy, rfl, h2, h3⟩
      obtain ⟨j, -, rfl⟩ := hsl c y hy
      show ((j : Int) + (c / L : Nat)) * L ≤ x + c ∧ x + c < ((j : Int) + (c / L : Nat)) * L + L
      simp only [Nat.cast_add, Nat.cast_mul] at h2 h3
      rw [add_mul, hdm']
      omega
    · rintro ⟨h2, h3⟩
      change (j + (c / L : Nat)) * (L : Int) ≤ x + c at h2
      change x + c < (j + (c / L : Nat)) * (L : Int) + L at h3
      rw [add_mul, hdm'] at h2 h3
      have hj0 : 0 ≤ j := by
        by_contra hlt
        have : j * (L : Int) ≤ (-1) * L := mul_le_mul_of_nonneg_right (by omega) (by omega)
        omega
      obtain ⟨j, rfl⟩ := Int.eq_ofNat_of_zero_le hj0
      refine ⟨_, List.mem_map.mpr ⟨j, List.mem_range.mpr ?_, rfl⟩, rfl, ?_, ?_⟩
      · by_contra hge
        have e : w / L + 2 ≤ j := by omega
        have e2 : (w / L + 2) * L ≤ j * L := Nat.mul_le_mul_right _ e
        have e3 : w < L * (w / L) + L := by
          have := Nat.div_add_mod w L
          have := Nat.mod_lt w hL
          omega
        have e4 : (w / L + 2) * L = L * (w / L) + 2 * L := by ring
        have e5 : ((j * L : Nat) : Int) = (j : Int) * L := by push_cast; rfl
        omega
      · simp only [Nat.cast_mul]; omega
      · simp only [Nat.cast_mul, Nat.cast_add]; omega
  · intro s n
    exact Nat.div_le_div_right (by omega)
  · rintro s t c rfl n hn -
    refine ⟨c + n, ?_, rfl⟩
    show Except.ok (c + (n : Int).toNat, _) = _
    have : c / L ≤ (c + n) / L := Nat.div_le_div_right (by omega)
    simp only [Int.toNat_natCast, chunkStream, Nat.cast_sub this]
  · rintro s t c rfl n hn -
    exact ⟨c, 0, le_refl _, rfl, rfl⟩

theorem chunks_fit (L : Nat) (hL : 0 < L) {m N : Nat} {Mq : Option Nat} (hpos : 0 < m) (hN : m ≤ N) (hM : ∀ M', Mq = some M' → m ≤ M') (us : List (MOp α))
    (hval : MSt.init.All m N Mq (fun u op => u.Valid m Mq op) us) (scale : ℚ) (h1 : 1 ≤ scale) (h2 : scale ≤ 2) (memD : List (List (Fl ℝ)))
    (memS memQ : List (List Int)) (hD : memD.length = RB.capacity scale ((N + 1 - m) / L + 2)) (hs : memS.length = RB.capacity scale ((N + 1 - m) / L + 2))
    (hQ : memQ.length = RB.capacity scale ((N + 1 - m) / L + 2)) :
    (chunkStream L (Mq.getD N + 1 - m) (N + 1 - m)).Fits (chunkMgr L (Mq.getD N + 1 - m) (N + 1 - m)) m N Mq us ⟨0, scale, memD, memS, memQ, none⟩ := by
  have hMm : m ≤ Mq.getD N := by
    cases e : Mq with
    | none => exact hN
    | some M' => exact hM M' e
  refine ⟨chunk_follows L _ _ hL (by omega), rfl, rfl, by simp [chunkStream], h1, h2, hD, hs, hQ, fun _ _ _ _ => trivial, ?_⟩
  revert hval
  generalize (MSt.init : MSt α) = u
  induction us generalizing u with
  | nil => intro _; trivial
  | cons x us ih =>
    intro hv
    refine ⟨?_, ih _ hv.2⟩
    rintro k rfl hmore c - y hy -
    have hv1 : m ≤ u.s.length → m ≤ u.q.length := hv.1
    unfold MSt.More at hmore
    rw [lastN_length] at hmore ⊢
    rw [show (chunkStream L (Mq.getD N + 1 - m) (N + 1 - m)).qc c = [⟨0, (Mq.getD N + 1 - m : Nat), 0⟩] from rfl, List.mem_singleton] at hy
    subst hy
    have := hv1 (by omega)
    simp only
    omega

/-- The conditions of `C93_contextual_partial` are met by contexts of any length `L` for every calculation. -/
theorem chunks_ok (S : StreamCase α) {idss : List (List Nat)} (hS : S.Any idss) (L : Nat) (hL : 0 < L) (scale : ℚ) (h1 : 1 ≤ scale) (h2 : scale ≤ 2) (memD : List (List (Fl ℝ)))
    (memS memQ : List (List Int)) (hD : memD.length = RB.capacity scale (S.w / L + 2)) (hs : memS.length = RB.capacity scale (S.w / L + 2))
    (hQ : memQ.length = RB.capacity scale (S.w / L + 2)) :
    S.CtxOk (chunkMgr L S.h S.w) (chunkStream L S.h S.w) ⟨0, scale, memD, memS, memQ, none⟩ :=
  chunks_fit L hL hS.args.pos hS.args.series hS.args.query S.us hS.valid scale h1 h2 memD memS memQ hD hs hQ

/-- **C93, contexts of equal length.** With contexts of `L` points on the series and the query as one context, for every calculation, also self-joins, whatever
leaves the windows: entry `j` is the smallest distance among the pairs calculated so far whose column is in the context that now has number `j`. Partial only for
Euclidean generators (`C62_euclidean_nan`). -/
theorem C93_chunks_partial (S : StreamCase α) (L : Nat) (hL : 0 < L) (cs : List (CMPObj Nat ℝ × Nat))
    (hcs : ∀ c ∈ cs, c.1.ctxs = 0 ∧ c.1.st = none ∧ 1 ≤ c.1.scale ∧ c.1.scale ≤ 2 ∧ c.1.memD.length = RB.capacity c.1.scale (S.w / L + 2) ∧
      c.1.memS.length = RB.capacity c.1.scale (S.w / L + 2) ∧ c.1.memQ.length = RB.capacity c.1.scale (S.w / L + 2)) (hS : S.Ok (cs.map fun c => [c.2])) :
    ∃ cons', S.result (CMP.ops (chunkMgr L S.h S.w)) (cs.map fun c => (c.1, [c.2])) = .ok cons' ∧
      List.Forall₂ (fun (c : CMPObj Nat ℝ × Nat) (o : CMPObj Nat ℝ × List Nat) => o.2 = [c.2] ∧ ∃ p D Q J, o.1.st = some p ∧ p.Holds 1 (S.w / L + 2) D Q J ∧
        ∀ j < S.w / L + 2, let first := (j + (S.last.s.length - S.N) / L) * L
          (∀ r c' : Nat, S.done r c' → first ≤ c' → c' < first + L → D 0 j ≤ .fin (S.dist c.2 r c')) ∧
          ((D 0 j = .pinf ∧ Q 0 j = -1 ∧ J 0 j = -1) ∨ ∃ r c' : Nat, S.done r c' ∧ (first ≤ c' ∧ c' < first + L) ∧ D 0 j = .fin (S.dist c.2 r c') ∧ Q 0 j = (r : Int) ∧ J 0 j = (c' : Int)))
        cs cons' := by
  obtain ⟨cons', h1, h2⟩ := C93_contextual_partial S (chunkMgr L S.h S.w) (cs.map fun c => (chunkStream L S.h S.w, c.1, c.2)) (by
    intro c hc
    obtain ⟨⟨⟨c0, sc, mD, mS, mQ, st⟩, id⟩, hx, rfl⟩ := List.mem_map.mp hc
    obtain ⟨h1, h2, h3, h4, h5, h6, h7⟩ := hcs _ hx
    simp only at h1 h2
    subst h1 h2
    exact chunks_ok S hS.toAny L hL sc h3 h4 mD mS mQ h5 h6 h7) (by simpa [List.map_map, Function.comp_def] using hS)
  refine ⟨cons', by simpa [List.map_map, Function.comp_def] using h1, ?_⟩
  rw [List.forall₂_map_left_iff] at h2
  refine h2.imp ?_
  rintro c o ⟨e, p, D, Q, J, g1, g2, g3⟩
  refine ⟨e, p, D, Q, J, g1, g2, fun j hj => ?_⟩
  have hmin := g3 0 (by simp [chunkStream]) j hj
  have hin : ∀ c' : Nat, (chunkStream L S.h S.w).inSeries ((j + (chunkStream L S.h S.w).moved (S.last.s.length - S.N) : Nat) : Int) (c' : Int) ↔
      (j + (S.last.s.length - S.N) / L) * L ≤ c' ∧ c' < (j + (S.last.s.length - S.N) / L) * L + L := by
    intro c'
    show ((j + (S.last.s.length - S.N) / L : Nat) : Int) * (L : Int) ≤ c' ∧ (c' : Int) < ((j + (S.last.s.length - S.N) / L : Nat) : Int) * (L : Int) + L ↔ _
    rw [← Nat.cast_mul]
    omega
  refine ⟨fun r c' hd a1 a2 => hmin.lower r c' hd ⟨rfl, by omega⟩ ((hin c').mpr ⟨a1, a2⟩), ?_⟩
  rcases hmin.attained with h | ⟨r, c', hd, -, a1, a2⟩
  · exact .inl h
  · exact .inr ⟨r, c', hd, (hin c').mp a1, a2⟩

/-! ### `GeneralStaticManager` -/

/-- The contexts of a `GeneralStaticManager`, which follows as long as nothing leaves the windows. -/
def CtxArgs.stream (A : CtxArgs) (m : StaticMgr) : CtxStream StaticMgr where
  nq := numIds A.qctx
  ns := numIds A.sctx
  inQuery := InCtx A.qctx
  inSeries := InCtx A.sctx
  moved := fun _ => 0
  pos := fun s t c => s = 0 ∧ t = 0 ∧ c = m
  upto := fun s t => s = 0 ∧ t = 0
  qc := fun _ => A.qctx
  sc := fun _ => A.sctx

theorem CtxArgs.follows {A : CtxArgs} (hA : A.Ok) (h w : Nat) : ∃ m, A.new = .ok ⟨m, A.scale, A.memD, A.memS, A.memQ, none⟩ ∧ (A.stream m).Follows StaticMgr.ops h w := by
  obtain ⟨m, hm, hinv⟩ := StaticMgr.init_inv A.series A.query hA.series hA.query hA.someQuery A.o1 A.o2 hA.start hA.stop
  have hserves := StaticMgr.serves hinv hA.someSeries (contexts_nonempty _) (contexts_bounds _ hA.query) (contexts_bounds _ hA.series)
  refine ⟨m, by unfold CtxArgs.new; rw [hm]; rfl, fun s t => ⟨?_, ?_, ?_, ?_, ?_⟩, ?_, ?_, ?_, ?_, ?_⟩
  · rintro c ⟨-, -, hc⟩; exact hserves.shape c hc
  · rintro c ⟨-, -, hc⟩; exact hserves.query c hc
  · rintro c ⟨-, -, hc⟩; exact hserves.series c hc
  · rintro c ⟨-, -, hc⟩; exact hserves.qbound c hc
  · rintro c ⟨-, -, hc⟩; exact hserves.sbound c hc
  · rintro s t c ⟨rfl, rfl, hc⟩ i x - -
    simp only [Nat.cast_zero, add_zero]; rfl
  · rintro s t c ⟨rfl, rfl, hc⟩ i x - -
    simp only [CtxArgs.stream, Nat.cast_zero, add_zero]
  · intro s n; exact le_refl _
  · rintro s t c - n hn ⟨h, -⟩; omega
  · rintro s t c - n hn ⟨-, h⟩; omega

/-- **C93, `GeneralStaticManager`.** As long as nothing leaves the windows, and whenever a column is calculated the query has a subsequence in every query range that
meets the window: no call raises, and the entries are the smallest distances of the context pairs. What happens else: `C93_static_raises`, `C93_unfilled_raises`. -/
theorem C93_static_partial (S : StreamCase α) (cs : List (CtxArgs × CMPObj StaticMgr ℝ × Nat)) (hcs : ∀ c ∈ cs, c.1.Ok ∧ c.1.new = .ok c.2.1)
    (hS : S.Ok (cs.map fun c => [c.2.2])) (hs : S.last.s.length ≤ S.N) (hq : S.last.q.length ≤ S.M.getD S.N)
    (hreach : ∀ c ∈ cs, MSt.init.All S.m S.N S.M (fun u op => ∀ k, op = .columns k → u.More S.m S.N k →
      Reaches c.1.qctx S.h ((lastN (S.M.getD S.N) u.q).length + 1 - S.m)) S.us) :
    ∃ cons', S.result (CMP.ops StaticMgr.ops) (cs.map fun c => (c.2.1, [c.2.2])) = .ok cons' ∧
      List.Forall₂ (fun (c : CtxArgs × CMPObj StaticMgr ℝ × Nat) (o : CMPObj StaticMgr ℝ × List Nat) => o.2 = [c.2.2] ∧ ∃ p D Q J, o.1.st = some p ∧
        p.Holds (numIds c.1.qctx) (numIds c.1.sctx) D Q J ∧ ∀ i < numIds c.1.qctx, ∀ j < numIds c.1.sctx,
          (∀ r c' : Nat, S.done r c' → InCtx c.1.qctx i r → InCtx c.1.sctx j c' → D i j ≤ .fin (S.dist c.2.2 r c')) ∧
          ((D i j = .pinf ∧ Q i j = -1 ∧ J i j = -1) ∨ ∃ r c' : Nat, S.done r c' ∧ InCtx c.1.qctx i r ∧ InCtx c.1.sctx j c' ∧ D i j = .fin (S.dist c.2.2 r c') ∧
            Q i j = (r : Int) ∧ J i j = (c' : Int))) cs cons' := by
  obtain ⟨cons', h1, h2⟩ := C93_contextual_partial S StaticMgr.ops (cs.map fun c => (c.1.stream c.2.1.ctxs, c.2.1, c.2.2)) (by
    intro c hc
    obtain ⟨⟨A, o, id⟩, hx, rfl⟩ := List.mem_map.mp hc
    obtain ⟨hA, hnew⟩ := hcs _ hx
    have hr := hreach _ hx
    obtain ⟨m, e, hf⟩ := CtxArgs.follows hA S.h S.w
    have ho : o = ⟨m, A.scale, A.memD, A.memS, A.memQ, none⟩ := Except.ok.inj (hnew.symm.trans e)
    subst ho
    have hns : 0 < numIds A.sctx := by
      obtain ⟨c, hc⟩ := List.exists_mem_of_ne_nil _ hA.someSeries
      have : c.id < (numIds A.sctx : Int) ∧ 0 ≤ c.id := ((hf.looks 0 0).sbound m ⟨rfl, rfl, rfl⟩ c hc).symm
      omega
    refine ⟨hf, ⟨rfl, rfl, rfl⟩, rfl, hns, hA.scale1, hA.scale2, hA.memD, hA.memS, hA.memQ, ?_, ?_⟩
    · intro s h3 t h4
      unfold StreamCase.last at hs hq
      exact ⟨by omega, by omega⟩
    · revert hr
      simp only
      generalize (MSt.init : MSt α) = u
      generalize S.us = us
      induction us generalizing u with
      | nil => intro _; trivial
      | cons x us ih =>
        intro h
        exact ⟨fun k hk hm c _ => h.1 k hk hm, ih _ h.2⟩) (by simpa [List.map_map, Function.comp_def] using hS)
  refine ⟨cons', by simpa [List.map_map, Function.comp_def] using h1, ?_⟩
  rw [List.forall₂_map_left_iff] at h2
  refine h2.imp ?_
  rintro c o ⟨e, p, D, Q, J, g1, g2, g3⟩
  refine ⟨e, p, D, Q, J, g1, g2, fun i hi j hj => ?_⟩
  have := g3 i hi j hj
  exact ⟨this.lower, this.attained⟩

/-- `GeneralStaticManager` refuses to follow: as soon as something leaves a window, the consumer raises `RuntimeError`. -/
theorem C93_static_raises [LinearOrder K] (p : CMP StaticMgr K) (n : Int) : p.shiftSeries StaticMgr.ops n = .error .runtimeError ∧ p.shiftQuery StaticMgr.ops n = .error .runtimeError :=
  ⟨rfl, rfl⟩

/-! ### Where it goes wrong -/

namespace CMP
variable [LinearOrder K] {ops : CtxOps M} {X : CtxStream M} {h w : Nat}

theorem colInner_raises (h w nq ns : Nat) (m : M) (qs ss : Nat) (vals : List (Fl K)) (c c1id : Int) (hj0 : 0 ≤ c1id) (hj : c1id < ns) :
    ∀ (cs : List Ctx) (p : CMP M K) (P : Nat → Nat → Set (Set (Cell K))), p.Inv h w nq ns m qs ss P → (∀ c0 ∈ cs, 0 ≤ c0.id ∧ c0.id < nq) →
      (∃ c0 ∈ cs, pySlice vals c0.start c0.stop = []) → colInner vals c c1id cs p = .error .valueError := by
  intro cs
  induction cs with
  | nil => rintro p P - - ⟨c0, h0, -⟩; exact absurd h0 (by simp)
  | cons c0 cs ih =>
    intro p P hp hb hex
    rw [colInner]
    by_cases he : pySlice vals c0.start c0.stop = []
    · rw [he]; rfl
    · obtain ⟨b1, b2⟩ := hb c0 (by simp)
      obtain ⟨p', e1, e2⟩ := improve_inv hp c0.id c1id b1 b2 hj0 hj _ he fun k => (k + c0.start, c)
      rw [e1]
      refine ih p' _ e2 (fun c0 h0 => hb c0 (by simp [h0])) ?_
      obtain ⟨x, hx, hx'⟩ := hex
      rcases List.mem_cons.mp hx with rfl | hx
      · exact absurd hx' he
      · exact ⟨x, hx, hx'⟩

/-- **C93 fails while the query window is not full.** Whatever the manager and the history: if a column that lies in some series context has no value for a query
range that meets the window, `process_column` takes the minimum of an empty array and raises `ValueError`. -/
theorem _root_.Verif.C93_unfilled_raises (hX : X.Follows ops h w) {p : CMP M K} {t : Seen K} (hp : Follow X h w p t) (c : Nat) (hc : c < w) (vals : List (Fl K)) (c0 : Ctx) (m : M)
    (hm : p.ctxs = m) (h0 : c0 ∈ X.qc m) (hov : Overlaps c0 0 h) (hlen : vals.length ≤ c0.start) (j : Int) (hj : X.inSeries j (c + t.ss : Nat)) :
    p.processColumn ops c [vals] = .error .valueError := by
  obtain ⟨m', hm', hinv⟩ := hp.inv
  have hctx := hinv.ctxs
  rw [hm] at hctx
  subst hctx
  have looks := hX.looks t.ss t.qs
  obtain ⟨c1, a1, a2, a3⟩ := (hX.series t.ss t.qs m hm' (j - X.moved t.ss) c (by omega) (by omega)).mpr (by rwa [sub_add_cancel, ← Nat.cast_add])
  obtain ⟨ls, e1, e2⟩ := looks.series m hm' c (c + 1) (by omega)
  obtain ⟨x, hx⟩ := hov
  have hx0 : 0 ≤ x ∧ x < h := hx.2
  obtain ⟨lq, e3, e4⟩ := looks.query m hm' 0 h (by omega)
  have hc1 : c1 ∈ ls := (e2 c1).mpr ⟨a1, c, by omega, by omega⟩
  have hne : ls ≠ [] := List.ne_nil_of_mem hc1
  obtain ⟨y, ls', rfl⟩ := List.exists_cons_of_ne_nil hne
  have hy := looks.sbound m hm' y ((e2 y).mp (by simp)).1
  unfold processColumn
  simp only [show pyGet [vals] 0 = .ok vals from rfl, bind, Except.bind, hm, e1]
  rw [colOuter, hm, hinv.h_eq, e3]
  simp only [bind, Except.bind]
  rw [colInner_raises h w X.nq X.ns m t.qs t.ss vals c y.id hy.1 hy.2 lq p _ hinv (fun c hc => (looks.qbound m hm' c ((e4 c).mp hc).1).2)
    ⟨c0, (e4 c0).mpr ⟨h0, x, hx⟩, ?_⟩]
  have hb := looks.qbound m hm' c0 h0
  rw [List.eq_nil_iff_forall_not_mem]
  intro v hv
  obtain ⟨k, hk⟩ := List.mem_iff_getElem?.mp hv
  rw [getElem?_pySlice vals _ _ hb.1 (by omega)] at hk
  have := (List.getElem?_eq_some_iff.mp hk.1).1
  omega

end CMP

/-! ### Concrete cases -/

/-- What a consumer shows: distances, query positions, series positions. -/
def exCtxShown (o : CMPObj M K) : List (List (Fl K)) × List (List Int) × List (List Int) :=
  (o.st.map fun p => (p.dist.items, p.miq.items, p.mis.items)).getD ([], [], [])

/-- A consumer with contexts of two points in the case `exStreamCase` of three generators, windows that overflow and an interrupted call. -/
example : ∃ a b, exStreamCase.result (CMP.ops (chunkMgr 2 exStreamCase.h exStreamCase.w)) [(⟨0, 1, [[], [], []], [[], [], []], [[], [], []], none⟩, [2]),
    (⟨0, 1, [[], [], []], [[], [], []], [[], [], []], none⟩, [0])] = .ok [(a, [2]), (b, [0])] := by
  obtain ⟨cons', h1, h2⟩ := C93_chunks_partial exStreamCase 2 (by decide) [(⟨0, 1, [[], [], []], [[], [], []], [[], [], []], none⟩, 2),
    (⟨0, 1, [[], [], []], [[], [], []], [[], [], []], none⟩, 0)] (by
      have : (3 : Nat) = RB.capacity 1 3 := by decide +kernel
      have h3 : exStreamCase.w / 2 + 2 = 3 := by simp [StreamCase.w, exStreamCase]
      intro c hc
      simp only [List.mem_cons, List.not_mem_nil, or_false] at hc
      rw [h3]
      rcases hc with rfl | rfl <;> exact ⟨rfl, rfl, le_refl _, by norm_num, this, this, this⟩) (exStreamCase_ok (by simp) (by simp) (by simp))
  cases h2 with
  | @cons _ x _ _ p1 h2 => cases h2 with
    | @cons _ y _ _ p2 h2 => cases h2 with
      | nil =>
        obtain ⟨a, _⟩ := x
        obtain ⟨b, _⟩ := y
        obtain ⟨rfl, -⟩ := p1
        obtain ⟨rfl, -⟩ := p2
        exact ⟨a, b, h1⟩

set_option synthInstance.maxSize 1000 in
/-- Contexts of two points, windows of three: query 0 4 9 and series 1 5 8 2 7, all columns calculated after 1 5 8 and after 2 7; squared distances. Then the
context of 1 5 has left, the first context is that of 8 2, whose best pair is 8 and 9, the second that of 7. -/
example : ((streamAll (CMP.ops (chunkMgr 2 3 3) (Eucl.genOps zeroMem (fun x : ℚ => x))) [(Eucl.streaming zeroMem 2, 0)]
      [(⟨0, 1, [[], [], []], [[], [], []], [[], [], []], none⟩, [0])] [0] 1 3 (some 3) 1 none
      [.query (.d2 [[.fin 0, .fin 4, .fin 9]] 3), .series (.d2 [[.fin 1, .fin 5, .fin 8]] 3), .columns (fun _ => false) (.int 3), .series (.d2 [[.fin 2, .fin 7]] 2),
        .columns (fun _ => false) (.int 3)]).map fun l => l.map fun c => exCtxShown c.1) =
    .ok [([[.fin 1], [.fin 4], [.pinf]], [[2], [2], [-1]], [[2], [4], [-1]])] := by
  decide +kernel

/-- A stream that fills its windows and moves no further: the query first, then the series in two pieces. -/
noncomputable def exFillingCase : StreamCase ℤ where
  memE := fun n => List.replicate n .nan
  memZ := ZN.zeroMem
  π := fun _ x => x
  m := 2
  N := 4
  M := some 4
  nDim := 1
  buffer := none
  kinds := [(.znorm (1 / 10) (3 / 2), 0)]
  needed := [0]
  us := [.query [4, 4, 7, 2], .series [1, 5, 2], .columns 2, .series [8], .columns 3]
  os := [.query (.d2 [[.fin 4, .fin 4, .fin 7, .fin 2]] 4), .series (.d2 [[.fin 1, .fin 5, .fin 2]] 3), .columns (fun _ => false) (.int 2), .series (.d1 [.fin 8]),
    .columns (fun _ => false) (.float (.fin 1))]

theorem exFillingCase_ok : exFillingCase.Ok [[0]] where
  memE := fun n => List.length_replicate
  memZ := ZN.zeroMem_ok
  args := by
    refine ⟨by decide, by decide, by simp [exFillingCase], by simp [exFillingCase], ?_, ?_, ?_, by decide, ?_⟩
    · simp [exFillingCase, GenKind.ScaleOk]; norm_num
    · simp [exFillingCase]
    · simp [exFillingCase]
    · intro id; simp [exFillingCase]
  calls := by
    refine ⟨.inl ?_, .inl ?_, ⟨2, .inl rfl, by simp, .inl rfl⟩, .inr ⟨8, rfl, ?_⟩, ⟨3, .inr ⟨1, rfl, by norm_num, by norm_num, by norm_num [exFillingCase]⟩, by simp, .inl rfl⟩, trivial⟩
    · simp [exFillingCase]
    · simp [exFillingCase]
    · simp [exFillingCase]
  valid := by
    refine ⟨?_, ?_, ?_, ?_, ?_, trivial⟩ <;> simp [MSt.Valid, MSt.step, MSt.init, exFillingCase]
  good := by
    have key : ∀ g ∈ exFillingCase.kinds, ∀ s q : List ℝ, g.1.Good exFillingCase.m s q := by
      intro g hg s q
      simp only [exFillingCase, List.mem_singleton] at hg
      subst hg
      trivial
    exact ⟨fun _ _ g hg => key g hg _ _, fun _ _ g hg => key g hg _ _, fun _ _ g hg => key g hg _ _, fun _ _ g hg => key g hg _ _, fun _ _ g hg => key g hg _ _, trivial⟩

/-- `C93_static_partial`: the contexts `exCtx` on that stream. -/
example : ∃ o a, exCtx.new = .ok o ∧ exFillingCase.result (CMP.ops StaticMgr.ops) [(o, [0])] = .ok [(a, [0])] := by
  obtain ⟨o, ho⟩ : ∃ o, exCtx.new = .ok o := ⟨_, rfl⟩
  have key : ∀ u : MSt ℤ, u.q = [4, 4, 7, 2] → Reaches exCtx.qctx exFillingCase.h ((lastN (exFillingCase.M.getD exFillingCase.N) u.q).length + 1 - exFillingCase.m) := by
    intro u hu c hc _
    have h3 : (lastN (exFillingCase.M.getD exFillingCase.N) u.q).length + 1 - exFillingCase.m = 3 := by rw [hu]; rfl
    rw [h3]
    have : ∀ c ∈ exCtx.qctx, c.start < ((3 : Nat) : Int) := by decide
    exact this c hc
  obtain ⟨cons', h1, h2⟩ := C93_static_partial exFillingCase [(exCtx, o, 0)] (by simpa using ⟨exCtx_ok, ho⟩) exFillingCase_ok (by decide) (by decide) (by
    intro c hc
    obtain rfl := List.mem_singleton.mp hc
    refine ⟨?_, ?_, ?_, ?_, ?_, trivial⟩
    · intro k hk; cases hk
    · intro k hk; cases hk
    · intro k _ _; exact key _ rfl
    · intro k hk; cases hk
    · intro k _ _; exact key _ rfl)
  cases h2 with
  | @cons _ x _ _ p1 h2 => cases h2 with
    | nil =>
      obtain ⟨a, _⟩ := x
      obtain ⟨rfl, -⟩ := p1
      exact ⟨o, a, ho, h1⟩

set_option synthInstance.maxSize 1000 in
/-- `GeneralStaticManager` with two contexts per axis while the windows fill: series 1 5, query 4 7 9 then 2; the entries are right as soon as the query reaches the
second context. -/
example : ((StaticMgr.init [.inl ⟨0, 1, 1⟩, .inl ⟨1, 4, 1⟩] (some [.inl ⟨0, 2, 1⟩, .inl ⟨2, 4, 1⟩]) [0, 1] [0, 1]).bind fun m =>
      (streamAll (CMP.ops StaticMgr.ops (Eucl.genOps zeroMem (fun x : ℚ => x))) [(Eucl.streaming zeroMem 2, 0)] [(⟨m, 1, [[], []], [[], []], [[], []], none⟩, [0])] [0] 1 4 (some 4) 1 none
      [.series (.d2 [[.fin 1, .fin 5]] 2), .query (.d2 [[.fin 4, .fin 7, .fin 9]] 3), .columns (fun _ => false) (.int 2), .query (.d2 [[.fin 2]] 1),
        .series (.d2 [[.fin 8]] 1), .columns (fun _ => false) (.int 4)]).map fun l => l.map fun c => exCtxShown c.1) =
    .ok [([[.fin 9, .fin 64], [.fin 1, .fin 1]], [[0, 2], [0, 2]], [[0, 0], [1, 2]])] := by
  decide +kernel

set_option synthInstance.maxSize 1000 in
/-- **C93 fails while the query window is not full**, in a whole calculation: the same contexts, but columns are calculated when the query has two points, none of
which is in the second query context: `ValueError`. -/
theorem C93_unfilled_witness : ((StaticMgr.init [.inl ⟨0, 1, 1⟩, .inl ⟨1, 4, 1⟩] (some [.inl ⟨0, 2, 1⟩, .inl ⟨2, 4, 1⟩]) [0, 1] [0, 1]).bind fun m =>
      (streamAll (CMP.ops StaticMgr.ops (Eucl.genOps zeroMem (fun x : ℚ => x))) [(Eucl.streaming zeroMem 2, 0)] [(⟨m, 1, [[], []], [[], []], [[], []], none⟩, [0])] [0] 1 4 (some 4) 1 none
      [.series (.d2 [[.fin 1, .fin 5]] 2), .query (.d2 [[.fin 4, .fin 7]] 2), .columns (fun _ => false) (.int 2)]).map fun l => l.map fun c => exCtxShown c.1) =
    .error .valueError := by
  decide +kernel

set_option synthInstance.maxSize 1000 in
/-- **C93 fails for query contexts that move with the stream.** Every point is a context of its own (`unitMgr`); query 0 10 20 and series 0 3, all columns calculated,
then one point is appended to the query. The rows of the points 10 and 20, which are now the first and the second, should be (100, 49) and (400, 289); shown are
(400, 289) and, for the point 20, the row (0, 9) of the point that has left. -/
theorem C93_query_wrong : ((streamAll (CMP.ops (unitMgr 3 2) (Eucl.genOps zeroMem (fun x : ℚ => x))) [(Eucl.streaming zeroMem 2, 0)]
      [(⟨(), 1, [[], []], [[], []], [[], []], none⟩, [0])] [0] 1 2 (some 3) 1 none
      [.query (.d2 [[.fin 0, .fin 10, .fin 20]] 3), .series (.d2 [[.fin 0, .fin 3]] 2), .columns (fun _ => false) (.int 2), .query (.d2 [[.fin 5]] 1)]).map
        fun l => l.map fun c => (exCtxShown c.1).1) =
    .ok [[[.fin 400, .fin 0, .pinf], [.fin 289, .fin 9, .pinf]]] := by
  decide +kernel

end Verif
