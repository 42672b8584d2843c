import Verif.Lemmas.FloatCases

/-!
Whole streaming calculations in floating point, and the transfer of what a single consumer does to all consumers of a calculation.
-/

namespace Verif
open Spec
variable {α C K : Type}

/-- Appending keeps data and cache of the Euclidean generator in step with the windows. -/
theorem Rounded.append_cache {R : ℝ → List ℝ → List ℝ → Prop} {P : Nat → ℝ → List ℝ → List ℝ → Prop} (dots : Rounded.Dots ℝ) (mem : Nat → List (Fl ℝ)) (m N : Nat)
    (M : Option Nat) (g : ColCache ℝ) (st : GSt ℝ) (hd : g.Data m N M st.s st.q) (hc : Rounded.Cache R P g m N st.s st.q st.last) :
    (∀ v, ∃ g', Eucl.appendSeries g (v.map .fin) = .ok g' ∧ g'.Data m N M (st.step N M (.series v)).s (st.step N M (.series v)).q ∧
      Rounded.Cache R P g' m N (st.step N M (.series v)).s (st.step N M (.series v)).q (st.step N M (.series v)).last) ∧
    (M ≠ none → ∀ v, ∃ g', Eucl.appendQuery g (v.map .fin) = .ok g' ∧ g'.Data m N M (st.step N M (.query v)).s (st.step N M (.query v)).q ∧
      Rounded.Cache R P g' m N (st.step N M (.query v)).s (st.step N M (.query v)).q (st.step N M (.query v)).last) := by
  have hdata : ∀ op g', Rounded.exec id dots mem Real.sqrt g op = .ok g' → g'.Data m N M (st.step N M op).s (st.step N M op).q := fun op g' he =>
    Rounded.exec_data g g' m N M st op hd he
  refine ⟨fun v => ?_, fun hM v => ?_⟩
  · have key : ∃ g', Eucl.appendSeries g (v.map .fin) = .ok g' ∧ Rounded.Cache R P g' m N (st.step N M (.series v)).s (st.step N M (.series v)).q
        (st.step N M (.series v)).last := by
      by_cases hv : v.length = 0
      · exact ⟨g, by simp [Eucl.appendSeries, hv], by simpa [GSt.step, hv] using hc⟩
      · obtain ⟨rb, h1, -, -⟩ := g.pushSeries_data m N M st.s st.q v hd
        refine ⟨_, ?_, Rounded.finishSeries_cache g m N M st v hd hc hv rb⟩
        simp only [Eucl.appendSeries, List.length_map, if_neg hv, h1, bind, Except.bind, pure, Except.pure]
    obtain ⟨g', h1, h2⟩ := key
    exact ⟨g', h1, hdata (.series v) g' h1, h2⟩
  · cases M with
    | none => exact absurd rfl hM
    | some M =>
      obtain ⟨rq, h1, -⟩ := hd.query
      have key : ∃ g', Eucl.appendQuery g (v.map .fin) = .ok g' ∧ Rounded.Cache R P g' m N (st.step N (some M) (.query v)).s (st.step N (some M) (.query v)).q
          (st.step N (some M) (.query v)).last := by
        by_cases hv : v.length = 0
        · exact ⟨g, by simp [Eucl.appendQuery, h1, hv], by simpa [GSt.step, hv] using hc⟩
        · obtain ⟨rq', g2, a, b, e⟩ := Rounded.pushQuery_cache g m N M st v hd hv hc
          rw [h1] at a; cases a
          exact ⟨g2, by simp [Eucl.appendQuery, h1, hv, b], by simpa [GSt.step, hv] using e⟩
      obtain ⟨g', h2, h3⟩ := key
      exact ⟨g', h2, hdata (.query v) g' h2, h3⟩

/-- Calls of a streaming calculation: no diagonals. -/
def GenKind.FloatStreamCall (F : FloatEnv) (b : FloatBounds) (m n : Nat) (M : Option Nat) (k : GenKind) (st : GSt ℝ) : GOp ℝ → Prop
  | .series _ => True
  | .query _ => M ≠ none
  | .column c => k.FloatCall F b m n M st (.column c)
  | .diag _ => False

theorem GenKind.floatNear {F : FloatEnv} {b : FloatBounds} {m : Nat} (h : F.Good b m) (memE : Nat → List (Fl ℝ)) (hmemE : ∀ n, (memE n).length = n)
    (memZ : ZN.Mem) (hmemZ : memZ.Ok) (N : Nat) (M : Option Nat) (n : Nat) (k : GenKind) :
    NearServes .fin (F.ops memE memZ) m N M (k.dist m) (Within (k.floatErr F b m n) (k.nanBelow F b m n)) (k.FloatStreamCall F b m n M)
      (k.FloatHolds F b m N M) := by
  refine ⟨?_, ?_, fun g st c h1 h2 => (k.floatServes h memE hmemE memZ hmemZ N M n).column g st c h1 h2, fun _ _ _ _ h2 => absurd h2 id⟩
  · intro g st v hi _
    cases k with
    | euclidean scale =>
      obtain ⟨x, rfl, hx⟩ := hi
      obtain ⟨x', h1, h2⟩ := (Rounded.append_cache F.dots memE m N M x st hx.1 hx.2).1 v
      exact ⟨.inl x', by simp [FloatEnv.ops, Rounded.genOps, GenOps.sum, h1, Except.map], x', rfl, h2⟩
    | znorm noise scale =>
      obtain ⟨x, rfl, hx⟩ := hi
      obtain ⟨x', h1, h2, h3⟩ := RoundedZ.appendSeries_ok (R := fun v w x => |v - pairSum (· * ·) w x| ≤ b.E) x m noise N M st v hx.1
      exact ⟨.inr x', by simp [FloatEnv.ops, RoundedZ.genOps, GenOps.sum, h1, Except.map], x', rfl, h2, h3 _ hx.2⟩
  · intro g st v hi hM
    cases k with
    | euclidean scale =>
      obtain ⟨x, rfl, hx⟩ := hi
      obtain ⟨x', h1, h2⟩ := (Rounded.append_cache F.dots memE m N M x st hx.1 hx.2).2 hM v
      exact ⟨.inl x', by simp [FloatEnv.ops, Rounded.genOps, GenOps.sum, h1, Except.map], x', rfl, h2⟩
    | znorm noise scale =>
      obtain ⟨x, rfl, hx⟩ := hi
      cases M with
      | none => exact absurd rfl hM
      | some M =>
        obtain ⟨x', h1, h2, h3⟩ := RoundedZ.appendQuery_ok (R := fun v w x => |v - pairSum (· * ·) w x| ≤ b.E) x m noise N M st v hx.1
        exact ⟨.inr x', by simp [FloatEnv.ops, RoundedZ.genOps, GenOps.sum, h1, Except.map], x', rfl, h2, h3 _ hx.2⟩

theorem GenKind.float_streaming {F : FloatEnv} {b : FloatBounds} (memE : Nat → List (Fl ℝ)) (hmemE : ∀ n, (memE n).length = n) (memZ : ZN.Mem)
    (hmemZ : memZ.Ok) (m N : Nat) (M : Option Nat) (hm0 : 0 < m) (hN : m ≤ N) (hM : ∀ M', M = some M' → m ≤ M') (k : GenKind) (hsc : k.ScaleOk) :
    ∃ x, FloatEnv.streaming memE memZ k m N (M.map fun M : Nat => (M : Int)) = .ok x ∧ k.FloatHolds F b m N M x ⟨[], [], none⟩ := by
  cases k with
  | euclidean scale =>
    have hfr : Eucl.Fresh memE m (Eucl.prepareStreaming memE scale m N M) N M ⟨[], [], none⟩ := Eucl.Fresh.streaming scale N M hsc.1 hsc.2 hN
      (by intro h; have := hM 0 h; omega)
    obtain ⟨h1, h2, h3, -⟩ := hfr.data hmemE hm0
    refine ⟨.inl (Eucl.prepareStreaming memE scale m N M), ?_, _, rfl, h1, RoundedZ.noCache _ _ _ _ _ _ _ h2 h3⟩
    simp [FloatEnv.streaming, Eucl.streaming, Option.map_map, Function.comp_def, Except.map]
  | znorm noise scale =>
    obtain ⟨z, h1, h2, h3, h4⟩ := RoundedZ.prepareStreaming_ok (rnd := F.rnd) (stat := F.stat) (mem := memZ.rounded) hmemZ noise scale hsc.1 hsc.2 m hm0 N M hN hM
    refine ⟨.inr z, ?_, z, rfl, h2, RoundedZ.noCache _ _ _ _ _ _ _ h3 h4⟩
    simp [FloatEnv.streaming, Option.map_map, Function.comp_def, h1, Except.map]

namespace StreamCase
variable (S : StreamCase α) (F : FloatEnv) (b : FloatBounds)

/-- Bound on the error of the distances of generator `id`; depends on the length of the query window, not on that of the streams. -/
noncomputable def floatErr (id : Nat) : ℝ :=
  match S.kinds[id]? with
  | some k => k.1.floatErr F b S.m (S.M.getD S.N)
  | none => 0

/-- Squared distance below which columns of generator `id` may contain NaN. -/
noncomputable def nanBelow (id : Nat) : ℝ :=
  match S.kinds[id]? with
  | some k => k.1.nanBelow F b S.m (S.M.getD S.N)
  | none => 0

/-- The consumers with their generator ids at the end of the calculation in floating point. -/
noncomputable def floatResult (ops : GenOps (ColCache ℝ ⊕ RoundedZ.Gen ℝ) ℝ → Ops (ColCache ℝ ⊕ RoundedZ.Gen ℝ) C ℝ) (consumers : List (C × List Nat)) :
    Except PyErr (List (C × List Nat)) :=
  streamAll (ops (F.ops S.memE S.memZ)) (S.kinds.map fun k => (FloatEnv.streaming S.memE S.memZ k.1, k.2)) consumers S.needed S.m S.N
    (S.M.map fun M : Nat => (M : Int)) S.nDim S.buffer S.os

/-- Calculations within the bounds: whenever columns are calculated, the windows are within the bounds, and no Euclidean distance outside the trivial match
band is too close to 0 (`C82_nan_wrong`). -/
structure FloatOk (idss : List (List Nat)) : Prop extends S.Any idss where
  env : F.Good b S.m
  data : MSt.init.All S.m S.N S.M (fun u op => ∀ k, op = .columns k → ∀ g ∈ S.kinds,
    g.1.FloatData F b S.m (lastN S.N (u.s.map (S.π g.2))) (lastN (S.M.getD S.N) (u.q.map (S.π g.2)))) S.us
  far : MSt.init.All S.m S.N S.M (fun u op => ∀ k, op = .columns k → ∀ id < S.kinds.length, ∀ r c, r + S.m ≤ (lastN (S.M.getD S.N) u.q).length →
    c + S.m ≤ (lastN S.N u.s).length → ¬ ((r : Int) - c ≤ S.b ∧ (c : Int) - r ≤ S.b) →
    S.nanBelow F b id ≤ streamValue S.π S.m S.kinds id (((lastN S.N u.s).drop c).take S.m) (((lastN (S.M.getD S.N) u.q).drop r).take S.m) ^ 2) S.us

variable {S F b}

theorem FloatOk.floatErr_nonneg {idss : List (List Nat)} (hS : S.FloatOk F b idss) (id : Nat) : 0 ≤ S.floatErr F b id := by
  unfold StreamCase.floatErr
  split
  · exact GenKind.floatErr_nonneg hS.env _ _
  · exact le_rfl

/-- What every single consumer does with calls near the exact ones, all consumers do. -/
theorem floatConsumers {ι : Type} (ops : GenOps (ColCache ℝ ⊕ RoundedZ.Gen ℝ) ℝ → Ops (ColCache ℝ ⊕ RoundedZ.Gen ℝ) C ℝ) (hops : ∀ g, (ops g).gen = g)
    (xs : List ι) (f : ι → C × List Nat) (hS : S.FloatOk F b (xs.map fun x => (f x).2)) (Post : ι → C → Prop)
    (hfed : ∀ x ∈ xs, ∃ p0, (ops (F.ops S.memE S.memZ)).initialise (f x).1 (f x).2.length (S.h : Int) (S.w : Int) = .ok p0 ∧
      ∀ es, List.Forall₂ (NearEvent (fun id => CloseVal (S.floatErr F b id)) (f x).2) (S.events (f x).2) es →
        ∃ p', feed (ops (F.ops S.memE S.memZ)) p0 es = .ok p' ∧ Post x p') :
    ∃ cons', S.floatResult F ops (xs.map f) = .ok cons' ∧ List.Forall₂ (fun x c' => c'.2 = (f x).2 ∧ Post x c'.1) xs cons' := by
  classical
  have ha := hS.args
  have hm0 := ha.pos
  have hN := ha.series
  have hM := ha.query
  have hfed' : ∀ x, ∃ p0, x ∈ xs → (ops (F.ops S.memE S.memZ)).initialise (f x).1 (f x).2.length (S.h : Int) (S.w : Int) = .ok p0 ∧
      ∀ es, List.Forall₂ (NearEvent (fun id => CloseVal (S.floatErr F b id)) (f x).2) (S.events (f x).2) es →
        ∃ p', feed (ops (F.ops S.memE S.memZ)) p0 es = .ok p' ∧ Post x p' := by
    intro x
    by_cases hx : x ∈ xs
    · obtain ⟨p0, h⟩ := hfed x hx
      exact ⟨p0, fun _ => h⟩
    · exact ⟨(f x).1, fun h => absurd h hx⟩
  choose p0 hp' using hfed'
  have hp0 := fun x hx => (hp' x hx).1
  have hp := fun x hx => (hp' x hx).2
  set gens := S.kinds.map fun k => (FloatEnv.streaming S.memE S.memZ k.1, k.2) with hgens
  set D : Nat → List ℝ → List ℝ → Fl ℝ := fun i => match S.kinds[i]? with
    | some k => k.1.dist S.m
    | none => fun _ _ => .nan with hD
  set Rel : Nat → Fl ℝ → Fl ℝ → Prop := fun i d v => match S.kinds[i]? with
    | some _ => Within (S.floatErr F b i) (S.nanBelow F b i) d v
    | none => True with hRel
  have herr : ∀ i k, S.kinds[i]? = some k → S.floatErr F b i = k.1.floatErr F b S.m (S.M.getD S.N) := by
    intro i k h; simp [StreamCase.floatErr, h]
  have hnan : ∀ i k, S.kinds[i]? = some k → S.nanBelow F b i = k.1.nanBelow F b S.m (S.M.getD S.N) := by
    intro i k h; simp [StreamCase.nanBelow, h]
  have hlen : gens.length = S.kinds.length := by simp [hgens]
  have hget : ∀ i < S.kinds.length, ∃ k, S.kinds[i]? = some k := fun i hi => ⟨_, List.getElem?_eq_getElem hi⟩
  have hdist : frameDist S.π (gens.map (·.2)) D = streamDist S.π S.m S.kinds := by
    funext id a c
    unfold frameDist streamDist
    cases h : S.kinds[id]? with
    | none => simp [hD, h]
    | some k => simp [hD, hgens, h]
  have hoff : ∀ vs : List (MOp α × Table ℝ), vs.map Prod.fst = S.us → MSt.init.AllNear S.m S.N S.M S.kinds.length Rel (streamDist S.π S.m S.kinds) vs →
      MSt.init.AllNearOff S.m S.N S.M S.b S.kinds.length (fun id => CloseVal (S.floatErr F b id)) (streamDist S.π S.m S.kinds) vs := by
    intro vs h1 h2
    have h3 := hS.far
    rw [← h1] at h3
    clear h1
    revert h2 h3
    generalize (MSt.init : MSt α) = u
    induction vs generalizing u with
    | nil => intro _ _; trivial
    | cons x vs ih =>
      intro h2 h3
      refine ⟨fun k hk id hid r c hr hc hb => ?_, ih _ h2.2 h3.2⟩
      obtain ⟨k', hk'⟩ := hget id hid
      have e1 := h2.1 id hid r c hr hc
      have e2 := h3.1 k hk id hid r c hr hc hb
      simp only [hRel, hk'] at e1
      obtain ⟨y, e3, ⟨-, e4⟩ | ⟨z, e4, e5, e6⟩⟩ := e1
      · rw [streamDist_value _ _ _ _ hid] at e3
        rw [Fl.fin.inj e3] at e2
        exact absurd e4 (not_lt.mpr e2)
      · exact .inr ⟨y, z, e3, e4, e5, e6⟩
  have hnear : ∀ (vs : List (MOp α × Table ℝ)), vs.map Prod.fst = S.us →
      MSt.init.AllNear S.m S.N S.M S.kinds.length Rel (streamDist S.π S.m S.kinds) vs → ∀ x ∈ xs,
      List.Forall₂ (NearEvent (fun id => CloseVal (S.floatErr F b id)) (f x).2) (S.events (f x).2)
        (MSt.allEventsOf S.m S.N S.M S.b (streamDist S.π S.m S.kinds) (f x).2 MSt.init vs) := by
    intro vs h1 h2 x hx
    have := stream_nearOff (b := S.b) (M := S.M) (by
      intro h
      unfold StreamCase.b bufferOf
      cases hM : S.M with
      | none => exact absurd hM h
      | some _ => rfl) (ids := (f x).2) (fun id hid => hS.id_lt (List.mem_map_of_mem hx) hid) hm0 vs MSt.init (fun _ => rfl)
        (by rw [h1]; exact hS.valid) (hoff vs h1 h2)
    rw [h1] at this
    exact this
  have H := streamAll_gen (enc := Fl.fin) (ops := ops (F.ops S.memE S.memZ)) (D := D) (Rel := Rel)
    (Ok := fun i st op => ∀ k, S.kinds[i]? = some k → k.1.FloatStreamCall F b S.m (S.M.getD S.N) S.M st op)
    (Inv := fun i x st => ∀ k, S.kinds[i]? = some k → k.1.FloatHolds F b S.m S.N S.M x st) (π := S.π) (nDim := S.nDim)
    gens ?_ ?_ hm0 hN hM ?_ ?_ S.needed
    (fun i s q => q.length ≤ S.M.getD S.N ∧ ∀ k, S.kinds[i]? = some k → k.1.FloatData F b S.m s q) (fun _ _ => True)
    (fun i _ w x _ k _ => trivial) (fun h i _ w x _ k _ => h)
    (fun i _ s q l c h1 h2 h3 h4 k hk => ⟨⟨h2, h3⟩, fun t e he => .inr (h4 t e he), h1.1, h1.2 k hk⟩)
    S.buffer ha.buffer (xs.map f) (xs.map fun x => (p0 x, (f x).2)) ?_ ?_
    (initialised (init := fun c n => (ops (F.ops S.memE S.memZ)).initialise c n (S.h : Int) (S.w : Int)) xs f p0 hp0) S.us S.os hS.calls ?_ ?_
  · rw [hdist, hlen] at H
    obtain ⟨vs, h1, h2, cons2, h3, h4⟩ := H
    refine ⟨cons2, h3, ?_⟩
    unfold AllFed at h4
    rw [List.forall₂_map_left_iff] at h4
    rw [List.forall₂_iff_get] at h4 ⊢
    refine ⟨h4.1, fun i hi hi' => ?_⟩
    obtain ⟨g1, g2⟩ := h4.2 i hi hi'
    have hx : xs.get ⟨i, hi⟩ ∈ xs := List.get_mem _ _
    obtain ⟨p', e, e'⟩ := hp _ hx _ (hnear vs h1 h2 _ hx)
    refine ⟨g1, ?_⟩
    have g3 := g2.symm.trans e
    cases g3
    exact e'
  · intro i hi
    rw [hlen] at hi
    obtain ⟨k, h⟩ := hget i hi
    have := GenKind.floatNear hS.env S.memE hS.memE S.memZ hS.memZ S.N S.M (S.M.getD S.N) k.1
    simp only [hops, hRel, hD, h, herr i k h, hnan i k h, Option.some.injEq, forall_eq']
    exact this
  · intro i a c
    cases h : S.kinds[i]? with
    | none => simp [hRel, h]
    | some k =>
      simp only [hRel, hD, h]
      exact k.1.dist_within S.m (by rw [herr i k h]; exact k.1.floatErr_nonneg hS.env _) a c
  · intro g hg
    obtain ⟨k, h1, rfl⟩ := List.mem_map.mp hg
    exact ha.chan k h1
  · intro i g hg
    rw [hgens, List.getElem?_map] at hg
    obtain ⟨k, h1, rfl⟩ := Option.map_eq_some_iff.mp hg
    obtain ⟨x, h2, h3⟩ := GenKind.float_streaming (F := F) (b := b) S.memE hS.memE S.memZ hS.memZ S.m S.N S.M hm0 hN hM k.1
      (ha.scale k (List.mem_of_getElem? h1))
    exact ⟨x, h2, fun k' hk' => by rw [h1] at hk'; cases hk'; exact h3⟩
  · refine ⟨ha.nodup, fun id => ?_⟩
    rw [ha.needed]
    constructor
    · rintro ⟨ids, h1, h2⟩
      obtain ⟨x, h3, rfl⟩ := List.mem_map.mp h1
      exact ⟨f x, List.mem_map_of_mem h3, h2⟩
    · rintro ⟨c, h1, h2⟩
      obtain ⟨x, h3, rfl⟩ := List.mem_map.mp h1
      exact ⟨(f x).2, List.mem_map_of_mem h3, h2⟩
  · intro c hc' id hid
    obtain ⟨x, h3, rfl⟩ := List.mem_map.mp hc'
    rw [hlen]
    exact hS.id_lt (List.mem_map_of_mem h3) hid
  · have h1 := hS.valid
    have h2 := hS.data
    revert h1 h2
    generalize S.us = us
    generalize (MSt.init : MSt α) = u
    induction us generalizing u with
    | nil => intro _ _; trivial
    | cons x us ih =>
      intro h1 h2
      refine ⟨⟨h1.1, fun k hk i g hg => ⟨by simp [lastN]; omega, fun k' hk' => ?_⟩, fun _ _ _ _ _ => trivial⟩, ih _ h1.2 h2.2⟩
      rw [hgens, List.getElem?_map] at hg
      obtain ⟨k2, e1, rfl⟩ := Option.map_eq_some_iff.mp hg
      obtain rfl : k2 = k' := Option.some.inj (e1.symm.trans hk')
      exact h2.1 k hk k2 (List.mem_of_getElem? e1)
  · rw [hdist, hlen]
    intro vs h1 h2
    apply allFed_of
    intro c hc
    obtain ⟨x, hx, rfl⟩ := List.mem_map.mp hc
    obtain ⟨p', e, -⟩ := hp x hx _ (hnear vs h1 h2 x hx)
    exact ⟨p', e⟩

end StreamCase
end Verif
