import Verif.Spec.Indifferent
import Verif.Lemmas.Solo
import Verif.Lemmas.ColumnCache
import Verif.Model.Filtered

/-!
Accepting points does not depend on what the generators of the repository were asked for.
-/

namespace Verif
open Spec
variable {G A B K : Type}

/-- States with the same data. -/
def ColCache.SameData (a b : ColCache K) : Prop := a.m = b.m ∧ a.series = b.series ∧ a.query = b.query

theorem ColCache.pushSeries_same {a b : ColCache K} (h : a.SameData b) (v : List (Fl K)) :
    (∃ e, a.pushSeries v = .error e ∧ b.pushSeries v = .error e) ∨
      ∃ a' b' d x, a.pushSeries v = .ok (a', d, x) ∧ b.pushSeries v = .ok (b', d, x) ∧ a'.SameData b' := by
  obtain ⟨h1, h2, h3⟩ := h
  unfold ColCache.pushSeries
  rw [h2]
  cases b.series.push v with
  | error e => exact .inl ⟨e, rfl, rfl⟩
  | ok r => exact .inr ⟨_, _, _, _, rfl, rfl, h1, rfl, h3⟩

theorem ColCache.finishSeries_frame (a : ColCache K) (d : Nat) (x : Int) :
    (a.finishSeries d x).m = a.m ∧ (a.finishSeries d x).series = a.series ∧ (a.finishSeries d x).query = a.query := by
  unfold ColCache.finishSeries
  dsimp only
  cases h : a.query <;> exact ⟨rfl, rfl, rfl⟩

theorem ColCache.finishSeries_same {a b : ColCache K} (h : a.SameData b) (d : Nat) (x : Int) : (a.finishSeries d x).SameData (b.finishSeries d x) := by
  obtain ⟨a1, a2, a3⟩ := a.finishSeries_frame d x
  obtain ⟨b1, b2, b3⟩ := b.finishSeries_frame d x
  exact ⟨by rw [a1, b1, h.1], by rw [a2, b2, h.2.1], by rw [a3, b3, h.2.2]⟩

theorem ColCache.pushQuery_same {a b : ColCache K} (h : a.SameData b) (q : RB (Fl K)) (v : List (Fl K)) :
    (∃ e, a.pushQuery q v = .error e ∧ b.pushQuery q v = .error e) ∨ ∃ a' b', a.pushQuery q v = .ok a' ∧ b.pushQuery q v = .ok b' ∧ a'.SameData b' := by
  obtain ⟨h1, h2, h3⟩ := h
  unfold ColCache.pushQuery
  cases q.push v with
  | error e => exact .inl ⟨e, rfl, rfl⟩
  | ok r => exact .inr ⟨_, _, rfl, rfl, h1, h2, rfl⟩

/-- Both raise, or both succeed with related results. -/
def Alike (R : A → B → Prop) (x : Except PyErr A) (y : Except PyErr B) : Prop :=
  (∃ e, x = .error e ∧ y = .error e) ∨ ∃ a b, x = .ok a ∧ y = .ok b ∧ R a b

theorem Alike.both {R : A → B → Prop} {x : Except PyErr A} {y : Except PyErr B} (h : Alike R x y) : (∃ a, x = .ok a) ↔ ∃ b, y = .ok b := by
  obtain ⟨e, rfl, rfl⟩ | ⟨a, b, rfl, rfl, -⟩ := h
  · constructor <;> rintro ⟨_, h⟩ <;> cases h
  · exact ⟨fun _ => ⟨_, rfl⟩, fun _ => ⟨_, rfl⟩⟩

theorem Alike.stay {R : A → B → Prop} {x : Except PyErr A} {y : Except PyErr B} (h : Alike R x y) {a : A} {b : B} (ha : x = .ok a) (hb : y = .ok b) : R a b := by
  obtain ⟨e, rfl, rfl⟩ | ⟨a', b', rfl, rfl, h⟩ := h
  · cases ha
  · cases ha
    cases hb
    exact h

theorem indifferent_of_alike {gops : GenOps G K} {R : G → G → Prop} (refl : ∀ g, R g g) (column : ∀ a b c b' v, R a b → gops.calcColumn b c = .ok (b', v) → R a b')
    (diagonal : ∀ a b d b' v, R a b → gops.calcDiagonal b d = .ok (b', v) → R a b') (series : ∀ a b v, R a b → Alike R (gops.appendSeries a v) (gops.appendSeries b v))
    (query : ∀ a b v, R a b → Alike R (gops.appendQuery a v) (gops.appendQuery b v)) : Indifferent gops R :=
  ⟨refl, column, diagonal, fun a b v h => (series a b v h).both, fun a b v _ _ h h1 h2 => (series a b v h).stay h1 h2, fun a b v h => (query a b v h).both,
    fun a b v _ _ h h1 h2 => (query a b v h).stay h1 h2⟩

theorem map_snd_ok {x : Except PyErr (List (Fl K))} {g g' : G} {v : List (Fl K)} (h : (x.map fun v => (g, v)) = .ok (g', v)) : g' = g := by
  obtain ⟨v', -, h⟩ := map_ok_iff.mp h
  cases h
  rfl

theorem Eucl.indifferent [Field K] [LinearOrder K] (mem : Nat → List (Fl K)) (sq : K → K) : Indifferent (Eucl.genOps mem sq) ColCache.SameData := by
  refine indifferent_of_alike (fun _ => ⟨rfl, rfl, rfl⟩) ?_ ?_ ?_ ?_
  · intro a b c b' v h hc
    obtain ⟨⟨g, w⟩, e1, e2⟩ := bind_ok_iff.mp (show Eucl.calcColumn mem sq b c = .ok (b', v) from hc)
    cases e2
    obtain ⟨f1, f2, f3⟩ := ColCache.column_frame _ _ _ _ e1
    exact ⟨by rw [f3, h.1], by rw [f1, h.2.1], by rw [f2, h.2.2]⟩
  · intro a b d b' v h hd
    rw [map_snd_ok (show (Eucl.calcDiagonal sq b d).map (fun v => (b, v)) = .ok (b', v) from hd)]
    exact h
  · intro a b v h
    show Alike _ (Eucl.appendSeries a v) (Eucl.appendSeries b v)
    unfold Eucl.appendSeries
    split
    · exact .inr ⟨_, _, rfl, rfl, h⟩
    · obtain ⟨e, e1, e2⟩ | ⟨a', b', d, x, e1, e2, e3⟩ := ColCache.pushSeries_same h v
      · rw [e1, e2]
        exact .inl ⟨e, rfl, rfl⟩
      · rw [e1, e2]
        exact .inr ⟨_, _, rfl, rfl, ColCache.finishSeries_same e3 d x⟩
  · intro a b v h
    show Alike _ (Eucl.appendQuery a v) (Eucl.appendQuery b v)
    unfold Eucl.appendQuery
    rw [h.2.2]
    split
    · exact .inl ⟨_, rfl, rfl⟩
    · split
      · exact .inr ⟨_, _, rfl, rfl, h⟩
      · exact ColCache.pushQuery_same h _ v

/-- States with the same data and statistics. -/
def ZN.SameData (a b : ZN) : Prop := a.core.SameData b.core ∧ a.noise = b.noise ∧ a.sStats = b.sStats ∧ a.qStats = b.qStats

theorem ZN.indifferent (mem : ZN.Mem) : Indifferent (ZN.genOps mem) ZN.SameData := by
  refine indifferent_of_alike (fun _ => ⟨⟨rfl, rfl, rfl⟩, rfl, rfl, rfl⟩) ?_ ?_ ?_ ?_
  · intro a b c b' v h hc
    have hc : ZN.calcColumn mem.fl b c = .ok (b', v) := hc
    unfold ZN.calcColumn at hc
    obtain ⟨_, -, hc⟩ := bind_ok_iff.mp hc
    obtain ⟨⟨g, dot⟩, e1, hc⟩ := bind_ok_iff.mp hc
    obtain ⟨f1, f2, f3⟩ := ColCache.column_frame _ _ _ _ e1
    obtain ⟨_, -, hc⟩ := bind_ok_iff.mp hc
    obtain ⟨_, -, hc⟩ := bind_ok_iff.mp hc
    obtain ⟨_, -, hc⟩ := bind_ok_iff.mp hc
    have fin : b' = { b with core := g } := by
      dsimp only at hc
      split at hc
      · cases hc
      · obtain ⟨_, -, hc⟩ := bind_ok_iff.mp hc
        cases hc
        rfl
    rw [fin]
    exact ⟨⟨by rw [f3, h.1.1], by rw [f1, h.1.2.1], by rw [f2, h.1.2.2]⟩, h.2⟩
  · intro a b d b' v h hd
    rw [map_snd_ok (show (ZN.calcDiagonal b d).map (fun v => (b, v)) = .ok (b', v) from hd)]
    exact h
  · intro a b v h
    show Alike _ (ZN.ofCall (a.appendSeries v)) (ZN.ofCall (b.appendSeries v))
    obtain ⟨h0, h1, h2, h3⟩ := h
    unfold ZN.appendSeries
    split
    · exact .inr ⟨_, _, rfl, rfl, h0, h1, h2, h3⟩
    · obtain ⟨e, e1, e2⟩ | ⟨a', b', d, x, e1, e2, e3⟩ := ColCache.pushSeries_same h0 v
      · rw [e1, e2]
        exact .inl ⟨e, rfl, rfl⟩
      · rw [e1, e2]
        dsimp only
        rw [h2, e3.1, show a'.s = b'.s by unfold ColCache.s; rw [e3.2.1]]
        rcases ZN.pushStats b.sStats b'.m b'.s v.length with ⟨st, none | e⟩
        · exact .inr ⟨_, _, rfl, rfl, ColCache.finishSeries_same e3 d x, h1, rfl, h3⟩
        · exact .inl ⟨e, rfl, rfl⟩
  · intro a b v h
    show Alike _ (ZN.ofCall (a.appendQuery v)) (ZN.ofCall (b.appendQuery v))
    obtain ⟨h0, h1, h2, h3⟩ := h
    unfold ZN.appendQuery
    rw [h0.2.2]
    split
    · exact .inl ⟨_, rfl, rfl⟩
    · split
      · exact .inr ⟨_, _, rfl, rfl, h0, h1, h2, h3⟩
      · rename_i rq _ _
        obtain ⟨e, e1, e2⟩ | ⟨a', b', e1, e2, e3⟩ := ColCache.pushQuery_same h0 rq v
        · rw [e1, e2]
          exact .inl ⟨e, rfl, rfl⟩
        · rw [e1, e2]
          dsimp only
          have hqs : a.qs = b.qs := by
            unfold ZN.qs
            rw [h2, h3]
          have hq : a'.q = b'.q := by
            unfold ColCache.q
            rw [e3.2.1, e3.2.2]
          rw [hqs, e3.1, hq]
          rcases ZN.pushStats b.qs b'.m b'.q v.length with ⟨st, none | e⟩
          · exact .inr ⟨_, _, rfl, rfl, e3, h1, h2, rfl⟩
          · exact .inl ⟨e, rfl, rfl⟩

theorem GenOps.sum_indifferent {a : GenOps A K} {b : GenOps B K} {R : A → A → Prop} {S : B → B → Prop} (ha : Indifferent a R) (hb : Indifferent b S) :
    Indifferent (a.sum b) (Sum.LiftRel R S) := by
  have pair : ∀ {X Y : Type} {f : X → Y} {x : Except PyErr (X × List (Fl K))} {y : Y} {v : List (Fl K)}, (x.map fun x => (f x.1, x.2)) = .ok (y, v) → ∃ x', x = .ok (x', v) ∧ f x' = y := by
    intro X Y f x y v h
    obtain ⟨⟨x', v'⟩, e1, e2⟩ := map_ok_iff.mp h
    cases e2
    exact ⟨x', e1, rfl⟩
  have ex : ∀ {X Y : Type} {f : X → Y} {x : Except PyErr X}, (∃ y, x.map f = .ok y) ↔ ∃ x', x = .ok x' := by
    intro X Y f x
    cases x with
    | error => constructor <;> rintro ⟨_, h⟩ <;> cases h
    | ok x => exact ⟨fun _ => ⟨_, rfl⟩, fun _ => ⟨_, rfl⟩⟩
  refine ⟨?_, ?_, ?_, ?_, ?_, ?_, ?_⟩
  · rintro (g | g)
    · exact .inl (ha.refl g)
    · exact .inr (hb.refl g)
  · rintro _ _ c b' v (⟨h⟩ | ⟨h⟩) e
    · obtain ⟨x', e1, rfl⟩ := pair e
      exact .inl (ha.column _ _ _ _ _ h e1)
    · obtain ⟨x', e1, rfl⟩ := pair e
      exact .inr (hb.column _ _ _ _ _ h e1)
  · rintro _ _ c b' v (⟨h⟩ | ⟨h⟩) e
    · obtain ⟨x', e1, rfl⟩ := pair e
      exact .inl (ha.diagonal _ _ _ _ _ h e1)
    · obtain ⟨x', e1, rfl⟩ := pair e
      exact .inr (hb.diagonal _ _ _ _ _ h e1)
  · rintro _ _ v (⟨h⟩ | ⟨h⟩)
    · exact ex.trans ((ha.series _ _ v h).trans ex.symm)
    · exact ex.trans ((hb.series _ _ v h).trans ex.symm)
  · rintro _ _ v a' b' (⟨h⟩ | ⟨h⟩) e1 e2
    · obtain ⟨x, f1, rfl⟩ := map_ok_iff.mp e1
      obtain ⟨y, f2, rfl⟩ := map_ok_iff.mp e2
      exact .inl (ha.series' _ _ v _ _ h f1 f2)
    · obtain ⟨x, f1, rfl⟩ := map_ok_iff.mp e1
      obtain ⟨y, f2, rfl⟩ := map_ok_iff.mp e2
      exact .inr (hb.series' _ _ v _ _ h f1 f2)
  · rintro _ _ v (⟨h⟩ | ⟨h⟩)
    · exact ex.trans ((ha.query _ _ v h).trans ex.symm)
    · exact ex.trans ((hb.query _ _ v h).trans ex.symm)
  · rintro _ _ v a' b' (⟨h⟩ | ⟨h⟩) e1 e2
    · obtain ⟨x, f1, rfl⟩ := map_ok_iff.mp e1
      obtain ⟨y, f2, rfl⟩ := map_ok_iff.mp e2
      exact .inl (ha.query' _ _ v _ _ h f1 f2)
    · obtain ⟨x, f1, rfl⟩ := map_ok_iff.mp e1
      obtain ⟨y, f2, rfl⟩ := map_ok_iff.mp e2
      exact .inr (hb.query' _ _ v _ _ h f1 f2)

/-- Filters around states with the same data, with the same marks. -/
structure Filter.Streaming.SameData (R : G → G → Prop) (a b : (Fl K → Bool) × Filter.Streaming G) : Prop where
  p : a.1 = b.1
  gen : R a.2.gen b.2.gen
  m : a.2.m = b.2.m
  invSeries : a.2.invSeries = b.2.invSeries
  sSub : a.2.sSub = b.2.sSub
  query : a.2.query = b.2.query

theorem Filter.streaming_indifferent [Zero K] {ops : GenOps G K} {R : G → G → Prop} (h : Indifferent ops R) : Indifferent (Filter.streamingOps ops) (Filter.Streaming.SameData R) := by
  have ser : ∀ (a b : (Fl K → Bool) × Filter.Streaming G) v, Filter.Streaming.SameData R a b → (∃ e1 e2, (Filter.streamingOps ops).appendSeries a v = .error e1 ∧ (Filter.streamingOps ops).appendSeries b v = .error e2) ∨
      ∃ a' b', (Filter.streamingOps ops).appendSeries a v = .ok a' ∧ (Filter.streamingOps ops).appendSeries b v = .ok b' ∧ Filter.Streaming.SameData R a' b' := by
    rintro ⟨p, ga, ma, ia, sa, qa⟩ ⟨p', gb, mb, ib, sb, qb⟩ v ⟨h1, h2, h3, h4, h5, h6⟩
    dsimp only at h1 h2 h3 h4 h5 h6
    subst h1 h3 h4 h5 h6
    have key : ∀ g, (Filter.streamingOps ops).appendSeries (p, ⟨g, ma, ia, sa, qa⟩) v = (Filter.applyValidation v ma (fun l _ => l.map p) >>= fun invalid =>
      Filter.pushMasks ma ia sa invalid >>= fun q => ops.appendSeries g (Filter.zeroed v invalid) >>= fun g => .ok ((⟨g, ma, q.1, q.2, qa⟩ : Filter.Streaming G))).map fun x => (p, x) := fun g => rfl
    rw [key, key]
    cases Filter.applyValidation v ma (fun l _ => l.map p) with
    | error e => exact .inl ⟨e, e, rfl, rfl⟩
    | ok invalid =>
      show (∃ e1 e2, (Filter.pushMasks ma ia sa invalid >>= _).map _ = .error e1 ∧ (Filter.pushMasks ma ia sa invalid >>= _).map _ = .error e2) ∨
        ∃ a' b', (Filter.pushMasks ma ia sa invalid >>= _).map _ = .ok a' ∧ (Filter.pushMasks ma ia sa invalid >>= _).map _ = .ok b' ∧ _
      cases Filter.pushMasks ma ia sa invalid with
      | error e => exact .inl ⟨e, e, rfl, rfl⟩
      | ok q =>
        show (∃ e1 e2, (ops.appendSeries ga _ >>= _).map _ = .error e1 ∧ (ops.appendSeries gb _ >>= _).map _ = .error e2) ∨
          ∃ a' b', (ops.appendSeries ga _ >>= _).map _ = .ok a' ∧ (ops.appendSeries gb _ >>= _).map _ = .ok b' ∧ _
        have hb := h.series ga gb (Filter.zeroed v invalid) h2
        have hs := h.series' ga gb (Filter.zeroed v invalid)
        cases e1 : ops.appendSeries ga (Filter.zeroed v invalid) with
        | error e =>
          cases e2 : ops.appendSeries gb (Filter.zeroed v invalid) with
          | error e' => exact .inl ⟨e, e', rfl, rfl⟩
          | ok g =>
            obtain ⟨_, h⟩ := hb.mpr ⟨g, e2⟩
            rw [e1] at h
            cases h
        | ok g =>
          obtain ⟨g', e2⟩ := hb.mp ⟨g, e1⟩
          rw [e2]
          exact .inr ⟨_, _, rfl, rfl, rfl, hs _ _ h2 e1 e2, rfl, rfl, rfl, rfl⟩
  have que : ∀ (a b : (Fl K → Bool) × Filter.Streaming G) v, Filter.Streaming.SameData R a b → (∃ e1 e2, (Filter.streamingOps ops).appendQuery a v = .error e1 ∧ (Filter.streamingOps ops).appendQuery b v = .error e2) ∨
      ∃ a' b', (Filter.streamingOps ops).appendQuery a v = .ok a' ∧ (Filter.streamingOps ops).appendQuery b v = .ok b' ∧ Filter.Streaming.SameData R a' b' := by
    rintro ⟨p, ga, ma, ia, sa, qa⟩ ⟨p', gb, mb, ib, sb, qb⟩ v ⟨h1, h2, h3, h4, h5, h6⟩
    dsimp only at h1 h2 h3 h4 h5 h6
    subst h1 h3 h4 h5 h6
    rcases qa with _ | ⟨q1, q2⟩
    · exact .inl ⟨_, _, rfl, rfl⟩
    · have key : ∀ g, (Filter.streamingOps ops).appendQuery (p, ⟨g, ma, ia, sa, some (q1, q2)⟩) v = (Filter.applyValidation v ma (fun l _ => l.map p) >>= fun invalid =>
        Filter.pushMasks ma q1 q2 invalid >>= fun q => ops.appendQuery g (Filter.zeroed v invalid) >>= fun g => .ok ((⟨g, ma, ia, sa, some q⟩ : Filter.Streaming G))).map fun x => (p, x) := fun g => rfl
      rw [key, key]
      cases Filter.applyValidation v ma (fun l _ => l.map p) with
      | error e => exact .inl ⟨e, e, rfl, rfl⟩
      | ok invalid =>
        show (∃ e1 e2, (Filter.pushMasks ma q1 q2 invalid >>= _).map _ = .error e1 ∧ (Filter.pushMasks ma q1 q2 invalid >>= _).map _ = .error e2) ∨
          ∃ a' b', (Filter.pushMasks ma q1 q2 invalid >>= _).map _ = .ok a' ∧ (Filter.pushMasks ma q1 q2 invalid >>= _).map _ = .ok b' ∧ _
        cases Filter.pushMasks ma q1 q2 invalid with
        | error e => exact .inl ⟨e, e, rfl, rfl⟩
        | ok q =>
          show (∃ e1 e2, (ops.appendQuery ga _ >>= _).map _ = .error e1 ∧ (ops.appendQuery gb _ >>= _).map _ = .error e2) ∨
            ∃ a' b', (ops.appendQuery ga _ >>= _).map _ = .ok a' ∧ (ops.appendQuery gb _ >>= _).map _ = .ok b' ∧ _
          have hb := h.query ga gb (Filter.zeroed v invalid) h2
          have hs := h.query' ga gb (Filter.zeroed v invalid)
          cases e1 : ops.appendQuery ga (Filter.zeroed v invalid) with
          | error e =>
            cases e2 : ops.appendQuery gb (Filter.zeroed v invalid) with
            | error e' => exact .inl ⟨e, e', rfl, rfl⟩
            | ok g =>
              obtain ⟨_, h⟩ := hb.mpr ⟨g, e2⟩
              rw [e1] at h
              cases h
          | ok g =>
            obtain ⟨g', e2⟩ := hb.mp ⟨g, e1⟩
            rw [e2]
            exact .inr ⟨_, _, rfl, rfl, rfl, hs _ _ h2 e1 e2, rfl, rfl, rfl, rfl⟩
  have fin : ∀ {x y : Except PyErr ((Fl K → Bool) × Filter.Streaming G)}, ((∃ e1 e2, x = .error e1 ∧ y = .error e2) ∨ ∃ a' b', x = .ok a' ∧ y = .ok b' ∧ Filter.Streaming.SameData R a' b') →
      ((∃ a, x = .ok a) ↔ ∃ b, y = .ok b) ∧ ∀ a b, x = .ok a → y = .ok b → Filter.Streaming.SameData R a b := by
    rintro x y (⟨e1, e2, rfl, rfl⟩ | ⟨a', b', rfl, rfl, h⟩)
    · exact ⟨(by constructor <;> (rintro ⟨_, h⟩; cases h)), (fun a b h => by cases h)⟩
    · exact ⟨⟨fun _ => ⟨_, rfl⟩, fun _ => ⟨_, rfl⟩⟩, fun a b h1 h2 => by cases h1; cases h2; exact h⟩
  refine ⟨fun g => ⟨rfl, h.refl _, rfl, rfl, rfl, rfl⟩, ?_, ?_, fun a b v hr => (fin (ser a b v hr)).1, fun a b v a' b' hr e1 e2 => (fin (ser a b v hr)).2 _ _ e1 e2,
    fun a b v hr => (fin (que a b v hr)).1, fun a b v a' b' hr e1 e2 => (fin (que a b v hr)).2 _ _ e1 e2⟩
  · rintro a ⟨p, b⟩ c b' v ⟨h1, h2, h3, h4, h5, h6⟩ e
    obtain ⟨⟨b1, v1⟩, e1, e2⟩ := map_ok_iff.mp (show (b.calcColumn ops c).map (fun x => ((p, x.1), x.2)) = .ok (b', v) from e)
    cases e2
    unfold Filter.Streaming.calcColumn at e1
    obtain ⟨flag, -, e1⟩ := bind_ok_iff.mp e1
    cases flag
    · rw [if_neg (by simp)] at e1
      obtain ⟨⟨g, d⟩, f1, e1⟩ := bind_ok_iff.mp e1
      obtain ⟨d', -, e1⟩ := bind_ok_iff.mp e1
      cases e1
      exact ⟨h1, h.column _ _ _ _ _ h2 f1, h3, h4, h5, h6⟩
    · rw [if_pos rfl] at e1
      obtain ⟨d', -, e1⟩ := bind_ok_iff.mp e1
      cases e1
      exact ⟨h1, h2, h3, h4, h5, h6⟩
  · rintro a ⟨p, b⟩ c b' v ⟨h1, h2, h3, h4, h5, h6⟩ e
    obtain ⟨⟨b1, v1⟩, e1, e2⟩ := map_ok_iff.mp (show (b.calcDiagonal ops c).map (fun x => ((p, x.1), x.2)) = .ok (b', v) from e)
    cases e2
    unfold Filter.Streaming.calcDiagonal at e1
    obtain ⟨⟨g, d⟩, f1, e1⟩ := bind_ok_iff.mp e1
    obtain ⟨d', -, e1⟩ := bind_ok_iff.mp e1
    cases e1
    exact ⟨h1, h.diagonal _ _ _ _ _ h2 f1, h3, h4, h5, h6⟩

/-- A generator without the append methods. -/
theorem Filter.batch_indifferent [Zero K] (ops : GenOps G K) : Indifferent (Filter.Batch.ops ops) (fun _ _ => True) :=
  ⟨fun _ => trivial, fun _ _ _ _ _ _ _ => trivial, fun _ _ _ _ _ _ _ => trivial, fun _ _ _ _ => ⟨(fun ⟨_, h⟩ => nomatch h), (fun ⟨_, h⟩ => nomatch h)⟩,
    fun _ _ _ _ _ _ _ _ => trivial, fun _ _ _ _ => ⟨(fun ⟨_, h⟩ => nomatch h), (fun ⟨_, h⟩ => nomatch h)⟩, fun _ _ _ _ _ _ _ _ => trivial⟩

theorem GenKind.indifferent (memE : Nat → List (Fl ℝ)) (memZ : ZN.Mem) : Indifferent (GenKind.ops memE memZ) (Sum.LiftRel ColCache.SameData ZN.SameData) :=
  GenOps.sum_indifferent (Eucl.indifferent memE Real.sqrt) (ZN.indifferent memZ)

theorem FKind.indifferent (memE : Nat → List (Fl ℝ)) (memZ : ZN.Mem) : ∃ R, Indifferent (FKind.ops memE memZ) R :=
  ⟨_, GenOps.sum_indifferent (GenKind.indifferent memE memZ) (GenOps.sum_indifferent (Filter.batch_indifferent _) (Filter.streaming_indifferent (GenKind.indifferent memE memZ)))⟩

end Verif
