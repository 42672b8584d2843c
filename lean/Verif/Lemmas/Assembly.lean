import Verif.Model.Assembly
import Verif.Lemmas.StreamFeed
import Verif.Props.StreamMatrix

/-!
Calculators with several generators and consumers.
-/

namespace Verif
open Spec
variable {α A B E G C K : Type}

/-! ### Generators of two classes -/

theorem Serves.inl {a : GenOps A K} {b : GenOps B K} {m N : Nat} {M : Option Nat} {D : List K → List K → Fl K} {Ok : GSt K → GOp K → Prop}
    {Inv : A → GSt K → Prop} (H : Serves a m N M D Ok Inv) :
    Serves (a.sum b) m N M D Ok (fun g st => ∃ x, g = .inl x ∧ Inv x st) := by
  refine ⟨?_, ?_, ?_, ?_⟩
  · rintro g st v ⟨x, rfl, hi⟩ hok
    obtain ⟨x', h1, h2⟩ := H.series x st v hi hok
    exact ⟨.inl x', by simp [GenOps.sum, h1, Except.map], x', rfl, h2⟩
  · rintro g st v ⟨x, rfl, hi⟩ hok
    obtain ⟨x', h1, h2⟩ := H.query x st v hi hok
    exact ⟨.inl x', by simp [GenOps.sum, h1, Except.map], x', rfl, h2⟩
  · rintro g st v ⟨x, rfl, hi⟩ hok
    obtain ⟨x', h1, h2⟩ := H.column x st v hi hok
    exact ⟨.inl x', by simp [GenOps.sum, h1, Except.map], x', rfl, h2⟩
  · rintro g st v ⟨x, rfl, hi⟩ hok
    obtain ⟨x', h1, h2⟩ := H.diag x st v hi hok
    exact ⟨.inl x', by simp [GenOps.sum, h1, Except.map], x', rfl, h2⟩

theorem Serves.inr {a : GenOps A K} {b : GenOps B K} {m N : Nat} {M : Option Nat} {D : List K → List K → Fl K} {Ok : GSt K → GOp K → Prop}
    {Inv : B → GSt K → Prop} (H : Serves b m N M D Ok Inv) :
    Serves (a.sum b) m N M D Ok (fun g st => ∃ x, g = .inr x ∧ Inv x st) := by
  refine ⟨?_, ?_, ?_, ?_⟩
  · rintro g st v ⟨x, rfl, hi⟩ hok
    obtain ⟨x', h1, h2⟩ := H.series x st v hi hok
    exact ⟨.inr x', by simp [GenOps.sum, h1, Except.map], x', rfl, h2⟩
  · rintro g st v ⟨x, rfl, hi⟩ hok
    obtain ⟨x', h1, h2⟩ := H.query x st v hi hok
    exact ⟨.inr x', by simp [GenOps.sum, h1, Except.map], x', rfl, h2⟩
  · rintro g st v ⟨x, rfl, hi⟩ hok
    obtain ⟨x', h1, h2⟩ := H.column x st v hi hok
    exact ⟨.inr x', by simp [GenOps.sum, h1, Except.map], x', rfl, h2⟩
  · rintro g st v ⟨x, rfl, hi⟩ hok
    obtain ⟨x', h1, h2⟩ := H.diag x st v hi hok
    exact ⟨.inr x', by simp [GenOps.sum, h1, Except.map], x', rfl, h2⟩

/-! ### Assembling -/

theorem addGenerators_ok (gens : List ((Int → Int → Option Int → Except PyErr G) × Nat)) (bound : List (G × Nat)) (m : Nat) (N : Int) (Q : Option Int) :
    ∀ st : Streaming G C, st.base.m = m → st.base.numSeries + m - 1 = N →
      (if st.base.selfJoin then none else some (st.base.numQuery + m - 1)) = Q →
      List.Forall₂ (fun g g' => g'.2 = g.2 ∧ g.2 < st.base.nDim ∧ g.1 m N Q = .ok g'.1) gens bound →
      Streaming.addGenerators gens st = .ok { st with base := { st.base with gens := st.base.gens ++ bound } } := by
  induction gens generalizing bound with
  | nil =>
    intro st _ _ _ h
    cases h
    simp [Streaming.addGenerators]
  | cons g gs ih =>
    intro st hm hN hQ h
    obtain ⟨g', bound', ⟨h1, h2, h3⟩, h4, rfl⟩ := List.forall₂_cons_left_iff.mp h
    have hadd : st.addGenerator g.1 (g.2 : Int) = .ok { st with base := { st.base with gens := st.base.gens ++ [g'] } } := by
      unfold Streaming.addGenerator
      rw [if_neg (by omega), hm, hN, hQ, h3]
      simp only [bind, Except.bind, pure, Except.pure, Int.toNat_natCast]
      rw [← h1]
    rw [Streaming.addGenerators, hadd]
    simp only [bind, Except.bind]
    rw [ih bound' { st with base := { st.base with gens := st.base.gens ++ [g'] } } hm hN hQ h4]
    simp

theorem streamAddConsumers_ok (ops : Ops G C K) (consumers cons' : List (C × List Nat)) :
    ∀ st : Streaming G C, List.Forall₂ (fun c c' => c'.2 = c.2 ∧ ops.initialise c.1 c.2.length st.base.numQuery st.base.numSeries = .ok c'.1) consumers cons' →
      Streaming.addConsumers ops consumers st = .ok { st with base := { st.base with cons := st.base.cons ++ cons' } } := by
  induction consumers generalizing cons' with
  | nil => intro st h; cases h; simp [Streaming.addConsumers]
  | cons c cs ih =>
    intro st h
    obtain ⟨c', cs', ⟨h1, h2⟩, h4, rfl⟩ := List.forall₂_cons_left_iff.mp h
    have hadd : st.addConsumer ops c.2 c.1 = .ok { st with base := { st.base with cons := st.base.cons ++ [c'] } } := by
      unfold Streaming.addConsumer Calc.addConsumer
      simp only [h2, bind, Except.bind, pure, Except.pure]
      rw [← h1]
    rw [Streaming.addConsumers, hadd]
    simp only [bind, Except.bind]
    rw [ih cs' { st with base := { st.base with cons := st.base.cons ++ [c'] } } h4]
    simp

/-- The trivial match buffer in force. -/
def bufferOf (m : Nat) (M : Option Nat) (buffer : Option Int) : Int := if M.isNone then buffer.getD (m / 2) else -1

theorem streamAll_gen {enc : E → Fl K} {ops : Ops G C K} {m N : Nat} {M : Option Nat} {D : Nat → List E → List E → Fl K} {Rel : Nat → Fl K → Fl K → Prop} {Ok : Nat → GSt E → GOp E → Prop}
    {Inv : Nat → G → GSt E → Prop} {π : Nat → α → E} {nDim : Nat} (gens : List ((Int → Int → Option Int → Except PyErr G) × Nat))
    (H : ∀ i < gens.length, NearServes enc ops.gen m N M (D i) (Rel i) (Ok i) (Inv i)) (hrefl : ∀ i a b, Rel i (D i a b) (D i a b)) (hm0 : 0 < m) (hN : m ≤ N) (hM : ∀ M', M = some M' → m ≤ M')
    (hchan : ∀ g ∈ gens, g.2 < nDim)
    (hprep : ∀ (i : Nat) g, gens[i]? = some g → ∃ x, g.1 m N (M.map fun M : Nat => (M : Int)) = .ok x ∧ Inv i x ⟨[], [], none⟩)
    (needed : List Nat) (good : Nat → List E → List E → Prop)
    (sok : Nat → List E → Prop) (hser : ∀ i < gens.length, ∀ w x, sok i x → Ok i w (.series x))
    (hqu : M ≠ none → ∀ i < gens.length, ∀ w x, sok i x → Ok i w (.query x))
    (hcol : ∀ i < gens.length, ∀ (s q : List E) (l : Option (Int × Bool)) (c : Nat), good i s q → c + m ≤ s.length → m ≤ q.length →
      (∀ t e, l = some (t, e) → t < (c : Int)) → Ok i ⟨s, q, l⟩ (.column c))
    (buffer : Option Int) (hb : M = none → -1 ≤ buffer.getD (m / 2) ∧ buffer.getD (m / 2) < ((N + 1 - m : Nat) : Int))
    (consumers cons1 : List (C × List Nat)) (hneed : needed.Nodup ∧ ∀ id, id ∈ needed ↔ ∃ c ∈ consumers, id ∈ c.2)
    (hids : ∀ c ∈ consumers, ∀ id ∈ c.2, id < gens.length)
    (hinit : List.Forall₂ (fun c c' => c'.2 = c.2 ∧ ops.initialise c.1 c.2.length ((M.getD N + 1 - m : Nat) : Int) ((N + 1 - m : Nat) : Int) = .ok c'.1) consumers cons1)
    (us : List (MOp α)) (os : List (Streaming.Op K)) (hc : AreCallsOf nDim (fun ch x => enc (π ch x)) m N M MSt.init us os)
    (hall : MSt.init.All m N M (fun u op => u.Valid m M op ∧ (∀ k, op = .columns k → ∀ (i : Nat) (g : _), gens[i]? = some g →
        good i (lastN N (u.s.map (π g.2))) (lastN (M.getD N) (u.q.map (π g.2)))) ∧
        ∀ v, op = .series v ∨ op = .query v → ∀ (i : Nat) (g : _), gens[i]? = some g → sok i (v.map (π g.2))) us)
    (hf : ∀ vs : List (MOp α × Table K), vs.map Prod.fst = us → MSt.init.AllNear m N M gens.length Rel (frameDist π (gens.map (·.2)) D) vs →
      ∃ cons2, AllFed ops (fun ids => MSt.allEventsOf m N M (bufferOf m M buffer) (frameDist π (gens.map (·.2)) D) ids MSt.init vs) cons1 cons2) :
    ∃ vs : List (MOp α × Table K), vs.map Prod.fst = us ∧ MSt.init.AllNear m N M gens.length Rel (frameDist π (gens.map (·.2)) D) vs ∧
      ∃ cons2, streamAll ops gens consumers needed m N (M.map fun M : Nat => (M : Int)) nDim buffer os = .ok cons2 ∧
        AllFed ops (fun ids => MSt.allEventsOf m N M (bufferOf m M buffer) (frameDist π (gens.map (·.2)) D) ids MSt.init vs) cons1 cons2 := by
  have e1 : ((N : Int) - m + 1) = ((N + 1 - m : Nat) : Int) := by omega
  have e2 : (((N + 1 - m : Nat) : Int) + m - 1) = (N : Int) := by omega
  set chan := gens.map (·.2) with hchandef
  have hlen : chan.length = gens.length := by simp [hchandef]
  obtain ⟨bound, l1, l2⟩ := exists_list (fun i (g : (Int → Int → Option Int → Except PyErr G) × Nat) (x : G × Nat) => x.2 = g.2 ∧
      g.1 m N (M.map fun M : Nat => (M : Int)) = .ok x.1 ∧ Inv i x.1 ⟨[], [], none⟩) gens (by
    intro i g hg
    obtain ⟨x, h1, h2⟩ := hprep i g hg
    exact ⟨(x, g.2), rfl, h1, h2⟩)
  have hbound : List.Forall₂ (fun g g' => g'.2 = g.2 ∧ g.2 < nDim ∧ g.1 (m : Int) (N : Int) (M.map fun M : Nat => (M : Int)) = .ok g'.1) gens bound := by
    rw [forall₂_iff_getElem?]
    refine ⟨l1, fun i g x hg hx => ?_⟩
    obtain ⟨a1, a2, a3⟩ := l2 i g x hg hx
    exact ⟨a1, hchan g (List.mem_of_getElem? hg), a2⟩
  -- the calculator before the first call
  obtain ⟨st0, s1, s2⟩ : ∃ st0 : Streaming G C, Streaming.init (m : Int) (N : Int) (M.map fun M : Nat => (M : Int)) nDim buffer = .ok st0 ∧
      st0 = ⟨⟨M.isNone, m, nDim, ((N + 1 - m : Nat) : Int), ((M.getD N + 1 - m : Nat) : Int), bufferOf m M buffer, [], [], -1⟩, 0, if M.isNone then -1 else 0⟩ := by
    refine ⟨_, ?_, rfl⟩
    cases M with
    | none =>
      have hmem : buffer.getD ((m : Int) / 2) ∈ pyRange (-1) ((N + 1 - m : Nat) : Int) := by rw [mem_pyRange]; have := hb rfl; omega
      simp only [Option.map_none]
      unfold Streaming.init Calc.init
      simp only [e1, if_true, if_pos hmem, bind, Except.bind, pure, Except.pure]
      rfl
    | some M' =>
      have hM' := hM M' rfl
      have e3 : ((M' : Int) - m + 1) = ((M' + 1 - m : Nat) : Int) := by omega
      simp only [Option.map_some]
      unfold Streaming.init Calc.init
      simp only [e1, e3, bind, Except.bind, pure, Except.pure]
      rfl
  have hq : (if M.isNone then none else some (((M.getD N + 1 - m : Nat) : Int) + m - 1)) = M.map fun M : Nat => (M : Int) := by
    cases M with
    | none => rfl
    | some M' =>
      have hM' := hM M' rfl
      simp only [Option.isNone_some, Bool.false_eq_true, if_false, Option.getD_some, Option.map_some]
      congr 1; omega
  have s3 := addGenerators_ok gens bound m N (M.map fun M : Nat => (M : Int)) st0 (by rw [s2]) (by rw [s2]; exact e2) (by rw [s2]; exact hq) (by rw [s2]; exact hbound)
  rw [s2] at s3
  simp only [List.nil_append] at s3
  have s4 := streamAddConsumers_ok ops consumers cons1 (⟨⟨M.isNone, m, nDim, ((N + 1 - m : Nat) : Int), ((M.getD N + 1 - m : Nat) : Int), bufferOf m M buffer, bound, [], -1⟩, 0,
    if M.isNone then -1 else 0⟩ : Streaming G C) hinit
  simp only [List.nil_append] at s4
  have hcids : cons1.map Prod.snd = consumers.map Prod.snd := by
    clear hf s4 hneed hids
    induction hinit with
    | nil => rfl
    | cons h _ ih => simp [h.1, ih]
  have hmemids : ∀ (x : List Nat), (∃ c ∈ cons1, c.2 = x) ↔ ∃ c ∈ consumers, c.2 = x := by
    intro x
    have e : ∀ l : List (C × List Nat), (∃ c ∈ l, c.2 = x) ↔ x ∈ l.map Prod.snd := by intro l; simp
    rw [e, e, hcids]
  obtain ⟨vs, v1, v2, st', r1, r2⟩ := feed_run (ops := ops) (D := D) (π := π) (chan := chan) (nDim := nDim) (Rel := Rel) (fun i hi => H i (hlen ▸ hi)) hrefl hm0 hN hM (bufferOf m M buffer)
    (by unfold bufferOf; split
        · rename_i h; exact (hb (by simpa using h)).1
        · omega)
    needed good sok (fun i hi => hser i (hlen ▸ hi)) (fun h i hi => hqu h i (hlen ▸ hi))
    (fun i hi => hcol i (hlen ▸ hi)) us os
    (⟨⟨M.isNone, m, nDim, ((N + 1 - m : Nat) : Int), ((M.getD N + 1 - m : Nat) : Int), bufferOf m M buffer, bound, cons1, -1⟩, 0,
      if M.isNone then -1 else 0⟩ : Streaming G C) MSt.init
    (by
      refine ⟨l1.trans hlen.symm, ?_, ?_, rfl, rfl, rfl, rfl, rfl, rfl, by simp [MSt.init], rfl, ?_, fun _ => rfl, by simp [MSt.init]⟩
      · intro i ch hch
        rw [hchandef, List.getElem?_map] at hch
        obtain ⟨g, hg, rfl⟩ := Option.map_eq_some_iff.mp hch
        have hi : i < bound.length := by rw [l1]; exact (List.getElem?_eq_some_iff.mp hg).1
        obtain ⟨a1, a2, a3⟩ := l2 i g _ hg (List.getElem?_eq_getElem hi)
        refine ⟨bound[i].1, none, ?_, by simpa [MSt.init, lastN] using a3, by simp⟩
        show bound[i]? = _
        rw [List.getElem?_eq_getElem hi]
        congr 1
        exact Prod.ext rfl a1
      · intro ch hch
        obtain ⟨g, hg, rfl⟩ := List.mem_map.mp hch
        exact hchan g hg
      · intro h
        have : M.isNone = false := by cases M <;> simp at h ⊢
        simp [this, MSt.init])
    (by
      refine ⟨hneed.1, fun id => ?_⟩
      rw [hneed.2]
      constructor
      · rintro ⟨c, h1, h2⟩
        obtain ⟨c', h3, h4⟩ := (hmemids c.2).mpr ⟨c, h1, rfl⟩
        exact ⟨c', h3, by rw [h4]; exact h2⟩
      · rintro ⟨c, h1, h2⟩
        obtain ⟨c', h3, h4⟩ := (hmemids c.2).mp ⟨c, h1, rfl⟩
        exact ⟨c', h3, by rw [h4]; exact h2⟩)
    (by
      intro c hc' id hid
      obtain ⟨c', h3, h4⟩ := (hmemids c.2).mp ⟨c, hc', rfl⟩
      rw [hlen]
      exact hids c' h3 id (by rw [h4]; exact hid))
    hc
    (by
      clear hc hf
      revert hall
      generalize (MSt.init : MSt α) = u
      induction us generalizing u with
      | nil => intro _; trivial
      | cons x us ih =>
        intro h
        refine ⟨⟨h.1.1, fun k hk i ch hch => ?_, fun v hv i ch hch => ?_⟩, ih _ h.2⟩
        · rw [hchandef, List.getElem?_map] at hch
          obtain ⟨g, hg, rfl⟩ := Option.map_eq_some_iff.mp hch
          exact h.1.2.1 k hk i g hg
        · rw [hchandef, List.getElem?_map] at hch
          obtain ⟨g, hg, rfl⟩ := Option.map_eq_some_iff.mp hch
          exact h.1.2.2 v hv i g hg)
    (by rw [hlen]; exact hf)
  rw [hlen] at v2
  refine ⟨vs, v1, v2, st'.base.cons, ?_, r2⟩
  unfold streamAll
  simp only [bind, Except.bind]
  rw [s1]
  simp only [s2, s3, s4, r1]
  rfl

theorem streamAll_near {ops : Ops G C K} {m N : Nat} {M : Option Nat} {D : Nat → List K → List K → Fl K} {Rel : Nat → Fl K → Fl K → Prop} {Ok : Nat → GSt K → GOp K → Prop}
    {Inv : Nat → G → GSt K → Prop} {π : Nat → α → K} {nDim : Nat} (gens : List ((Int → Int → Option Int → Except PyErr G) × Nat))
    (H : ∀ i < gens.length, NearServes .fin ops.gen m N M (D i) (Rel i) (Ok i) (Inv i)) (hrefl : ∀ i a b, Rel i (D i a b) (D i a b)) (hm0 : 0 < m) (hN : m ≤ N) (hM : ∀ M', M = some M' → m ≤ M')
    (hchan : ∀ g ∈ gens, g.2 < nDim)
    (hprep : ∀ (i : Nat) g, gens[i]? = some g → ∃ x, g.1 m N (M.map fun M : Nat => (M : Int)) = .ok x ∧ Inv i x ⟨[], [], none⟩)
    (needed : List Nat) (good : Nat → List K → List K → Prop)
    (hser : ∀ i < gens.length, ∀ w x, Ok i w (.series x)) (hqu : M ≠ none → ∀ i < gens.length, ∀ w x, Ok i w (.query x))
    (hcol : ∀ i < gens.length, ∀ (s q : List K) (l : Option (Int × Bool)) (c : Nat), good i s q → c + m ≤ s.length → m ≤ q.length →
      (GSt.mk s q l).Safe (.column c) → Ok i ⟨s, q, l⟩ (.column c))
    (buffer : Option Int) (hb : M = none → -1 ≤ buffer.getD (m / 2) ∧ buffer.getD (m / 2) < ((N + 1 - m : Nat) : Int))
    (consumers cons1 : List (C × List Nat)) (hneed : needed.Nodup ∧ ∀ id, id ∈ needed ↔ ∃ c ∈ consumers, id ∈ c.2)
    (hids : ∀ c ∈ consumers, ∀ id ∈ c.2, id < gens.length)
    (hinit : List.Forall₂ (fun c c' => c'.2 = c.2 ∧ ops.initialise c.1 c.2.length ((M.getD N + 1 - m : Nat) : Int) ((N + 1 - m : Nat) : Int) = .ok c'.1) consumers cons1)
    (us : List (MOp α)) (os : List (Streaming.Op K)) (hc : AreCalls nDim π m N M MSt.init us os)
    (hall : MSt.init.All m N M (fun u op => u.Valid m M op ∧ ∀ k, op = .columns k → ∀ (i : Nat) (g : _), gens[i]? = some g →
        good i (lastN N (u.s.map (π g.2))) (lastN (M.getD N) (u.q.map (π g.2)))) us)
    (hf : ∀ vs : List (MOp α × Table K), vs.map Prod.fst = us → MSt.init.AllNear m N M gens.length Rel (frameDist π (gens.map (·.2)) D) vs →
      ∃ cons2, AllFed ops (fun ids => MSt.allEventsOf m N M (bufferOf m M buffer) (frameDist π (gens.map (·.2)) D) ids MSt.init vs) cons1 cons2) :
    ∃ vs : List (MOp α × Table K), vs.map Prod.fst = us ∧ MSt.init.AllNear m N M gens.length Rel (frameDist π (gens.map (·.2)) D) vs ∧
      ∃ cons2, streamAll ops gens consumers needed m N (M.map fun M : Nat => (M : Int)) nDim buffer os = .ok cons2 ∧
        AllFed ops (fun ids => MSt.allEventsOf m N M (bufferOf m M buffer) (frameDist π (gens.map (·.2)) D) ids MSt.init vs) cons1 cons2 := by
  refine streamAll_gen gens H hrefl hm0 hN hM hchan hprep needed good (fun _ _ => True) (fun i hi w x _ => hser i hi w x) (fun h i hi w x _ => hqu h i hi w x)
    (fun i hi s q l c h1 h2 h3 h4 => hcol i hi s q l c h1 h2 h3 (fun t e he => .inr (h4 t e he))) buffer hb consumers cons1 hneed hids hinit us os hc ?_ hf
  clear hc hf
  revert hall
  generalize (MSt.init : MSt α) = u
  induction us generalizing u with
  | nil => intro _; trivial
  | cons x us ih => intro h; exact ⟨⟨h.1.1, h.1.2, fun _ _ _ _ _ => trivial⟩, ih _ h.2⟩

theorem streamAll_ok {ops : Ops G C K} {m N : Nat} {M : Option Nat} {D : Nat → List K → List K → Fl K} {Ok : Nat → GSt K → GOp K → Prop}
    {Inv : Nat → G → GSt K → Prop} {π : Nat → α → K} {nDim : Nat} (gens : List ((Int → Int → Option Int → Except PyErr G) × Nat))
    (H : ∀ i < gens.length, Serves ops.gen m N M (D i) (Ok i) (Inv i)) (hm0 : 0 < m) (hN : m ≤ N) (hM : ∀ M', M = some M' → m ≤ M')
    (hchan : ∀ g ∈ gens, g.2 < nDim)
    (hprep : ∀ (i : Nat) g, gens[i]? = some g → ∃ x, g.1 m N (M.map fun M : Nat => (M : Int)) = .ok x ∧ Inv i x ⟨[], [], none⟩)
    (needed : List Nat) (good : Nat → List K → List K → Prop)
    (hser : ∀ i < gens.length, ∀ w x, Ok i w (.series x)) (hqu : M ≠ none → ∀ i < gens.length, ∀ w x, Ok i w (.query x))
    (hcol : ∀ i < gens.length, ∀ (s q : List K) (l : Option (Int × Bool)) (c : Nat), good i s q → c + m ≤ s.length → m ≤ q.length →
      (GSt.mk s q l).Safe (.column c) → Ok i ⟨s, q, l⟩ (.column c))
    (buffer : Option Int) (hb : M = none → -1 ≤ buffer.getD (m / 2) ∧ buffer.getD (m / 2) < ((N + 1 - m : Nat) : Int))
    (consumers cons1 cons2 : List (C × List Nat)) (hneed : needed.Nodup ∧ ∀ id, id ∈ needed ↔ ∃ c ∈ consumers, id ∈ c.2)
    (hids : ∀ c ∈ consumers, ∀ id ∈ c.2, id < gens.length)
    (hinit : List.Forall₂ (fun c c' => c'.2 = c.2 ∧ ops.initialise c.1 c.2.length ((M.getD N + 1 - m : Nat) : Int) ((N + 1 - m : Nat) : Int) = .ok c'.1) consumers cons1)
    (us : List (MOp α)) (os : List (Streaming.Op K)) (hc : AreCalls nDim π m N M MSt.init us os)
    (hall : MSt.init.All m N M (fun u op => u.Valid m M op ∧ ∀ k, op = .columns k → ∀ (i : Nat) (g : _), gens[i]? = some g →
        good i (lastN N (u.s.map (π g.2))) (lastN (M.getD N) (u.q.map (π g.2)))) us)
    (hf : AllFed ops (fun ids => MSt.allEvents m N M (bufferOf m M buffer) (frameDist π (gens.map (·.2)) D) ids MSt.init us) cons1 cons2) :
    streamAll ops gens consumers needed m N (M.map fun M : Nat => (M : Int)) nDim buffer os = .ok cons2 := by
  have hcids : cons1.map Prod.snd = consumers.map Prod.snd := by
    clear hf hneed hids
    induction hinit with
    | nil => rfl
    | cons h _ ih => simp [h.1, ih]
  have hids1 : ∀ c ∈ cons1, ∀ id ∈ c.2, id < gens.length := by
    intro c hc' id hid
    have : c.2 ∈ cons1.map Prod.snd := List.mem_map_of_mem hc'
    rw [hcids] at this
    obtain ⟨c', h1, h2⟩ := List.mem_map.mp this
    exact hids c' h1 id (h2 ▸ hid)
  have hval : MSt.init.All m N M (fun u op => u.Valid m M op) us := by
    clear hc hf
    revert hall
    generalize (MSt.init : MSt α) = u
    induction us generalizing u with
    | nil => intro _; trivial
    | cons x us ih => intro h; exact ⟨h.1.1, ih _ h.2⟩
  have hex : ∀ vs : List (MOp α × Table K), vs.map Prod.fst = us → MSt.init.AllNear m N M gens.length (fun _ => Eq) (frameDist π (gens.map (·.2)) D) vs →
      ∀ ids, (∀ id ∈ ids, id < gens.length) → MSt.allEventsOf m N M (bufferOf m M buffer) (frameDist π (gens.map (·.2)) D) ids MSt.init vs =
        MSt.allEvents m N M (bufferOf m M buffer) (frameDist π (gens.map (·.2)) D) ids MSt.init us := by
    intro vs h1 h2 ids h3
    rw [allEventsOf_exact (bufferOf m M buffer) (by intro h; unfold bufferOf; rw [if_neg]; simpa using h) ids gens.length h3 _ hm0 vs MSt.init
      (fun _ => rfl) (by rw [h1]; exact hval) h2, h1]
  obtain ⟨vs, h1, h2, cons2', h3, h4⟩ := streamAll_near gens (fun i hi => (H i hi).near) (fun _ _ _ => rfl) hm0 hN hM hchan hprep needed good hser hqu hcol
    buffer hb consumers cons1 hneed hids hinit us os hc hall (fun vs h1 h2 => ⟨cons2, hf.congr fun c hc => (hex vs h1 h2 c.2 (hids1 c hc)).symm⟩)
  rw [h3, (h4.congr fun c hc => hex vs h1 h2 c.2 (hids1 c hc)).unique hf]

end Verif
