import Verif.Lemmas.EndToEnd
import Verif.Lemmas.Calculator

/-!
Generators whose columns are only related to the distances of their windows.
-/

namespace Verif
open Spec
variable {E G C K : Type}

/-- Like `Serves`, but the values of columns only have to be related to the distances, and the points of the series are of any type, `enc` turns
them into floats. -/
structure NearServes (enc : E → Fl K) (ops : GenOps G K) (m N : Nat) (M : Option Nat) (D : List E → List E → Fl K) (Rel : Fl K → Fl K → Prop)
    (Ok : GSt E → GOp E → Prop) (Inv : G → GSt E → Prop) : Prop where
  series : ∀ g st v, Inv g st → Ok st (.series v) → ∃ g', ops.appendSeries g (v.map enc) = .ok g' ∧ Inv g' (st.step N M (.series v))
  query : ∀ g st v, Inv g st → Ok st (.query v) → ∃ g', ops.appendQuery g (v.map enc) = .ok g' ∧ Inv g' (st.step N M (.query v))
  column : ∀ g st c, Inv g st → Ok st (.column c) → ∃ g' vs, ops.calcColumn g c = .ok (g', vs) ∧ vs.length = st.q.length + 1 - m ∧
      (∀ i v, vs[i]? = some v → Rel (D (win m st.s c) (win m st.q i)) v) ∧ Inv g' (st.step N M (.column c))
  diag : ∀ g st d, Inv g st → Ok st (.diag d) → ∃ g', ops.calcDiagonal g d =
      .ok (g', (List.range (diagEntries m st.q.length st.s.length d)).map fun k =>
        D (win m st.s (d.toNat + k)) (win m st.q ((-d).toNat + k))) ∧ Inv g' st

theorem Serves.near {ops : GenOps G K} {m N : Nat} {M : Option Nat} {D : List K → List K → Fl K} {Ok : GSt K → GOp K → Prop}
    {Inv : G → GSt K → Prop} (H : Serves ops m N M D Ok Inv) : NearServes .fin ops m N M D Eq Ok Inv := by
  refine ⟨H.series, H.query, fun g st c h1 h2 => ?_, H.diag⟩
  obtain ⟨g', e1, e2⟩ := H.column g st c h1 h2
  refine ⟨g', _, e1, by simp, fun i v h => ?_, e2⟩
  have hi : i < st.q.length + 1 - m := by simpa using (List.getElem?_eq_some_iff.mp h).1
  rw [List.getElem?_map, List.getElem?_range hi] at h
  exact Option.some.inj h

/-- What a calculation needs of a generator whose series does not change: values that are related to the windows they are about. -/
structure WinServes (ops : GenOps G K) (m N : Nat) (M : Option Nat) (RelD RelC : List E → List E → Fl K → Prop)
    (Ok : GSt E → GOp E → Prop) (Inv : G → GSt E → Prop) : Prop where
  column : ∀ g st c, Inv g st → Ok st (.column c) → ∃ g' vs, ops.calcColumn g c = .ok (g', vs) ∧ vs.length = st.q.length + 1 - m ∧
      (∀ i v, vs[i]? = some v → RelC (win m st.s c) (win m st.q i) v) ∧ Inv g' (st.step N M (.column c))
  diag : ∀ g st d, Inv g st → Ok st (.diag d) → ∃ g' vs, ops.calcDiagonal g d = .ok (g', vs) ∧ vs.length = diagEntries m st.q.length st.s.length d ∧
      (∀ k v, vs[k]? = some v → RelD (win m st.s (d.toNat + k)) (win m st.q ((-d).toNat + k)) v) ∧ Inv g' st

theorem NearServes.windows {enc : E → Fl K} {ops : GenOps G K} {m N : Nat} {M : Option Nat} {D : List E → List E → Fl K} {Rel : Fl K → Fl K → Prop}
    {Ok : GSt E → GOp E → Prop} {Inv : G → GSt E → Prop} (H : NearServes enc ops m N M D Rel Ok Inv) :
    WinServes ops m N M (fun w x v => v = D w x) (fun w x v => Rel (D w x) v) Ok Inv := by
  refine ⟨H.column, fun g st d h1 h2 => ?_⟩
  obtain ⟨g', e1, e2⟩ := H.diag g st d h1 h2
  refine ⟨g', _, e1, by simp, fun k v h => ?_, e2⟩
  have hk : k < diagEntries m st.q.length st.s.length d := by simpa using (List.getElem?_eq_some_iff.mp h).1
  rw [List.getElem?_map, List.getElem?_range hk] at h
  exact (Option.some.inj h).symm

theorem WinServes.gives_columns {gops : GenOps G K} {m N : Nat} {M : Option Nat} {RelD RelC : List E → List E → Fl K → Prop}
    {Ok : GSt E → GOp E → Prop} {Inv : G → GSt E → Prop} (H : WinServes gops m N M RelD RelC Ok Inv) (s q : List E) (P : Option (Int × Bool) → Nat → Prop)
    (hOk : ∀ (l : Option (Int × Bool)) (c : Nat), c + m ≤ s.length → P l c → Ok ⟨s, q, l⟩ (.column c))
    (xs : List Nat) (hnd : xs.Nodup) (hpw : xs.Pairwise fun c c' : Nat => P (some ((c : Int), true)) c') (hx : ∀ c ∈ xs, c + m ≤ s.length) : ∀ (g : G) (l : Option (Int × Bool)), Inv g ⟨s, q, l⟩ →
      (∀ c ∈ xs, P l c) →
      ∃ (g' : G) (l' : Option (Int × Bool)) (row : Int → List (Fl K)),
        Gives gops.calcColumn (fun _ => q.length + 1 - m) row (xs.map fun c : Nat => (c : Int)) g g' ∧
        (∀ c ∈ xs, (row c).length = q.length + 1 - m ∧ ∀ i v, (row c)[i]? = some v → RelC (win m s c) (win m q i) v) ∧
        Inv g' ⟨s, q, l'⟩ ∧ (∀ t e, l' = some (t, e) → (e = true ∧ ∃ c ∈ xs, t = (c : Int)) ∨ l = some (t, e)) := by
  induction xs with
  | nil => intro g l hi _; exact ⟨g, l, fun _ => [], rfl, by simp, hi, fun t e h => .inr h⟩
  | cons c xs ih =>
    intro g l hi hs
    obtain ⟨hc, hnd⟩ := List.nodup_cons.mp hnd
    obtain ⟨g1, vs, h1, hlen, hrel, h2⟩ := H.column g ⟨s, q, l⟩ c hi (hOk l c (hx c (by simp)) (hs c (by simp)))
    obtain ⟨hpc, hpw⟩ := List.pairwise_cons.mp hpw
    obtain ⟨g', l', row, h3, hrow, h4, h5⟩ := ih hnd hpw (fun c hc => hx c (by simp [hc])) g1 (some (c, true)) h2 hpc
    refine ⟨g', l', fun x => if x = (c : Int) then vs else row x, ⟨g1, vs, h1, ?_, ?_⟩, ?_, h4, ?_⟩
    · simp only [if_true]; exact npRow_self _ _ hlen
    · refine Gives.congr (fun x hx => ?_) h3
      obtain ⟨c', hc', rfl⟩ := List.mem_map.mp hx
      rw [if_neg]
      intro h
      have : c' = c := by exact_mod_cast h
      exact hc (this ▸ hc')
    · intro c' hc'
      by_cases h : c' = c
      · subst h; simp only [if_true]; exact ⟨hlen, hrel⟩
      · have h' : (c' : Int) ≠ c := by exact_mod_cast h
        simp only [if_neg h']
        exact hrow c' ((List.mem_cons.mp hc').resolve_left h)
    · intro t e h
      rcases h5 t e h with ⟨he, c', hc', rfl⟩ | h
      · exact .inl ⟨he, c', by simp [hc'], rfl⟩
      · cases h; exact .inl ⟨rfl, c, by simp, rfl⟩

theorem NearServes.gives_columns {enc : E → Fl K} {gops : GenOps G K} {m N : Nat} {M : Option Nat} {D : List E → List E → Fl K} {Rel : Fl K → Fl K → Prop}
    {Ok : GSt E → GOp E → Prop} {Inv : G → GSt E → Prop} (H : NearServes enc gops m N M D Rel Ok Inv) (s q : List E) (P : Option (Int × Bool) → Nat → Prop)
    (hOk : ∀ (l : Option (Int × Bool)) (c : Nat), c + m ≤ s.length → P l c → Ok ⟨s, q, l⟩ (.column c))
    (xs : List Nat) (hnd : xs.Nodup) (hpw : xs.Pairwise fun c c' : Nat => P (some ((c : Int), true)) c') (hx : ∀ c ∈ xs, c + m ≤ s.length) : ∀ (g : G) (l : Option (Int × Bool)), Inv g ⟨s, q, l⟩ →
      (∀ c ∈ xs, P l c) →
      ∃ (g' : G) (l' : Option (Int × Bool)) (row : Int → List (Fl K)),
        Gives gops.calcColumn (fun _ => q.length + 1 - m) row (xs.map fun c : Nat => (c : Int)) g g' ∧
        (∀ c ∈ xs, (row c).length = q.length + 1 - m ∧ ∀ i v, (row c)[i]? = some v → Rel (D (win m s c) (win m q i)) v) ∧
        Inv g' ⟨s, q, l'⟩ ∧ (∀ t e, l' = some (t, e) → (e = true ∧ ∃ c ∈ xs, t = (c : Int)) ∨ l = some (t, e)) :=
  H.windows.gives_columns s q P hOk xs hnd hpw hx

theorem WinServes.gives_diags {gops : GenOps G K} {m N : Nat} {M : Option Nat} {RelD RelC : List E → List E → Fl K → Prop}
    {Ok : GSt E → GOp E → Prop} {Inv : G → GSt E → Prop} (H : WinServes gops m N M RelD RelC Ok Inv) (st : GSt E)
    (hOk : ∀ d, st.Valid m M (.diag d) → Ok st (.diag d))
    (n : Int → Nat) (xs : List Int) (hnd : xs.Nodup) (hn : ∀ d ∈ xs, n d = diagEntries m st.q.length st.s.length d)
    (hx : ∀ d ∈ xs, st.Valid m M (.diag d)) : ∀ g, Inv g st →
      ∃ (g' : G) (row : Int → List (Fl K)), Gives gops.calcDiagonal n row xs g g' ∧
        (∀ d ∈ xs, (row d).length = diagEntries m st.q.length st.s.length d ∧
          ∀ k v, (row d)[k]? = some v → RelD (win m st.s (d.toNat + k)) (win m st.q ((-d).toNat + k)) v) ∧ Inv g' st := by
  induction xs with
  | nil => intro g hi; exact ⟨g, fun _ => [], rfl, by simp, hi⟩
  | cons d xs ih =>
    intro g hi
    obtain ⟨hd, hnd⟩ := List.nodup_cons.mp hnd
    obtain ⟨g1, vs, h1, hlen, hrel, h2⟩ := H.diag g st d hi (hOk d (hx d (by simp)))
    obtain ⟨g', row, h3, hrow, h4⟩ := ih hnd (fun c hc => hn c (by simp [hc])) (fun c hc => hx c (by simp [hc])) g1 h2
    refine ⟨g', fun x => if x = d then vs else row x, ⟨g1, vs, h1, ?_, ?_⟩, ?_, h4⟩
    · simp only [if_true]; exact npRow_self _ _ (by rw [hlen, hn d (by simp)])
    · refine Gives.congr (fun x hxs => ?_) h3
      rw [if_neg]
      rintro rfl
      exact hd hxs
    · intro d' hd'
      by_cases h : d' = d
      · subst h; simp only [if_true]; exact ⟨hlen, hrel⟩
      · simp only [if_neg h]
        exact hrow d' ((List.mem_cons.mp hd').resolve_left h)

theorem NearServes.gives_diags {enc : E → Fl K} {gops : GenOps G K} {m N : Nat} {M : Option Nat} {D : List E → List E → Fl K} {Rel : Fl K → Fl K → Prop}
    {Ok : GSt E → GOp E → Prop} {Inv : G → GSt E → Prop} (H : NearServes enc gops m N M D Rel Ok Inv) (st : GSt E)
    (hOk : ∀ d, st.Valid m M (.diag d) → Ok st (.diag d))
    (n : Int → Nat) (xs : List Int) (hn : ∀ d ∈ xs, n d = diagEntries m st.q.length st.s.length d)
    (hx : ∀ d ∈ xs, st.Valid m M (.diag d)) : ∀ g, Inv g st →
      ∃ g', Gives gops.calcDiagonal n (diagRow D m st.s st.q) xs g g' ∧ Inv g' st := by
  induction xs with
  | nil => intro g hi; exact ⟨g, rfl, hi⟩
  | cons d xs ih =>
    intro g hi
    obtain ⟨g1, h1, h2⟩ := H.diag g st d hi (hOk d (hx d (by simp)))
    obtain ⟨g', h3, h4⟩ := ih (fun c hc => hn c (by simp [hc])) (fun c hc => hx c (by simp [hc])) g1 h2
    exact ⟨g', ⟨g1, _, h1, npRow_self _ _ (by rw [hn d (by simp)]; simp), h3⟩, h4⟩

theorem Spec.AllFed.unique {ops : Ops G C K} {e : List Nat → List (CEvent K)} {a b b' : List (C × List Nat)} (h : AllFed ops e a b) (h' : AllFed ops e a b') :
    b = b' := by
  unfold AllFed at h h'
  induction h generalizing b' with
  | nil => cases h'; rfl
  | @cons x y _ _ hh _ ih =>
    cases h' with
    | @cons _ y' _ _ hh' ht' =>
      rw [ih ht']
      have h1 : y.2 = y'.2 := hh.1.trans hh'.1.symm
      have h2 : y.1 = y'.1 := Except.ok.inj (hh.2.symm.trans hh'.2)
      rw [Prod.ext h2 h1]

end Verif
