import Verif.Lemmas.FloatCases

/-!
# C88: batch calculations in floating point, and the profiles they give
-/

namespace Verif
open Spec
variable {α K : Type}

/-! ### Nearest rows up to errors -/

theorem Spec.IsNearestWithin.congr {ε : ℝ} {d : Nat → ℝ} {h : Nat} {rows rows' : Nat → Prop} {v : Fl ℝ} {i : Int} (H : IsNearestWithin ε d h rows v i)
    (e : ∀ r < h, rows r ↔ rows' r) : IsNearestWithin ε d h rows' v i := by
  rcases H with ⟨h1, h2⟩ | ⟨r, hr, h1, h2, y, h3, h4, h5⟩
  · exact .inl ⟨h1, fun r hr hn => h2 r hr ((e r hr).mpr hn)⟩
  · exact .inr ⟨r, hr, (e r hr).mp h1, h2, y, h3, h4, fun r' hr' hn => h5 r' hr' ((e r' hr').mpr hn)⟩

theorem pick_within {ε : ℝ} {d : Nat → ℝ} {h : Nat} {rows : Nat → Prop} {b : Fl ℝ × Int} (H : IsNearestWithin ε d h rows b.1 b.2) {r : Nat} (hr : r < h)
    {y : ℝ} (hy : |y - d r| ≤ ε) :
    IsNearestWithin ε d h (fun r' => rows r' ∨ r' = r) (pick b (.fin y, (r : Int))).1 (pick b (.fin y, (r : Int))).2 := by
  have hyr := (abs_le.mp hy).2
  unfold pick
  rcases H with ⟨h1, h2⟩ | ⟨r0, hr0, h1, h2, z, h3, h4, h5⟩
  · have : Fl.ltF (Fl.fin y) b.1 = true := by rw [Fl.ltF_iff, h1]; simp
    rw [if_pos this]
    refine .inr ⟨r, hr, .inr rfl, rfl, y, rfl, hy, ?_⟩
    rintro r' hr' (hn | rfl)
    · exact absurd hn (h2 r' hr')
    · linarith
  · by_cases hlt : y < z
    · have : Fl.ltF (Fl.fin y) b.1 = true := by rw [Fl.ltF_iff, h3]; simpa using hlt
      rw [if_pos this]
      refine .inr ⟨r, hr, .inr rfl, rfl, y, rfl, hy, ?_⟩
      rintro r' hr' (hn | rfl)
      · have := h5 r' hr' hn; linarith
      · linarith
    · have : ¬ Fl.ltF (Fl.fin y) b.1 = true := by rw [Fl.ltF_iff, h3]; simpa using hlt
      rw [if_neg this]
      refine .inr ⟨r0, hr0, .inl h1, h2, z, h3, h4, ?_⟩
      rintro r' hr' (hn | rfl)
      · exact h5 r' hr' hn
      · linarith

theorem fold_within {ε : ℝ} {d : Nat → ℝ} {h : Nat} (es : List (Fl ℝ × Int)) : ∀ {rows : Nat → Prop} {b : Fl ℝ × Int}, IsNearestWithin ε d h rows b.1 b.2 →
    (∀ e ∈ es, e.1 = .pinf ∨ ∃ r < h, ∃ y, e = (.fin y, (r : Int)) ∧ |y - d r| ≤ ε) →
    IsNearestWithin ε d h (fun r => rows r ∨ ∃ e ∈ es, e.2 = (r : Int) ∧ e.1 ≠ .pinf) (es.foldl pick b).1 (es.foldl pick b).2 := by
  induction es with
  | nil => intro rows b H _; exact H.congr fun r _ => by simp
  | cons e es ih =>
    intro rows b H he
    rw [List.foldl_cons]
    rcases he e (by simp) with h1 | ⟨r, hr, y, rfl, hy⟩
    · have : pick b e = b := by
        unfold pick
        rw [if_neg]
        rw [Fl.ltF_iff, h1]
        simp
      rw [this]
      refine (ih H fun e he' => he e (by simp [he'])).congr fun r _ => ?_
      constructor
      · rintro (h | ⟨e', h2, h3⟩)
        · exact .inl h
        · exact .inr ⟨e', by simp [h2], h3⟩
      · rintro (h | ⟨e', h2, h3, h4⟩)
        · exact .inl h
        · rcases List.mem_cons.mp h2 with rfl | h2
          · exact absurd h1 h4
          · exact .inr ⟨e', h2, h3, h4⟩
    · refine (ih (pick_within H hr hy) fun e he' => he e (by simp [he'])).congr fun r' _ => ?_
      constructor
      · rintro ((h | rfl) | ⟨e', h2, h3⟩)
        · exact .inl h
        · exact .inr ⟨(Fl.fin y, (r' : Int)), by simp, rfl, by simp⟩
        · exact .inr ⟨e', by simp [h2], h3⟩
      · rintro (h | ⟨e', h2, h3, h4⟩)
        · exact .inl (.inl h)
        · rcases List.mem_cons.mp h2 with rfl | h2
          · exact .inl (.inr (by simpa using h3.symm))
          · exact .inr ⟨e', h2, h3, h4⟩

theorem min_within {ε : ℝ} {d : Nat → ℝ} {h : Nat} {es : List (Fl ℝ × Int)} {rows : Nat → Prop} {v : Fl ℝ} {i : Int} (H : IsMin es v i)
    (he : ∀ e ∈ es, e.1 = .pinf ∨ ∃ r < h, rows r ∧ ∃ y, e = (.fin y, (r : Int)) ∧ |y - d r| ≤ ε)
    (hr : ∀ r < h, rows r → ∃ e ∈ es, e.2 = (r : Int) ∧ e.1 ≠ .pinf) : IsNearestWithin ε d h rows v i := by
  have hrow : ∀ r < h, rows r → ∃ y, v ≤ .fin y ∧ |y - d r| ≤ ε := by
    intro r hr' hn
    obtain ⟨e, h1, h2, h3⟩ := hr r hr' hn
    rcases he e h1 with h4 | ⟨r', -, -, y, rfl, h4⟩
    · exact absurd h4 h3
    · obtain rfl : r' = r := by simpa using h2
      exact ⟨y, H.lower _ h1, h4⟩
  have hinf : v = .pinf → IsNearestWithin ε d h rows v i := by
    rintro rfl
    refine .inl ⟨rfl, fun r hr' hn => ?_⟩
    obtain ⟨y, h1, -⟩ := hrow r hr' hn
    exact absurd h1 (by simp)
  rcases H.attained with ⟨h1, -⟩ | hm
  · exact hinf h1
  · rcases he _ hm with h1 | ⟨r, hr', hn, y, h1, h2⟩
    · exact hinf h1
    · obtain ⟨rfl, rfl⟩ := Prod.mk.inj h1
      refine .inr ⟨r, hr', hn, rfl, y, rfl, h2, fun r' hr' hn' => ?_⟩
      obtain ⟨z, h3, h4⟩ := hrow r' hr' hn'
      have h3 : y ≤ z := by simpa using h3
      have := (abs_le.mp h4).2
      linarith

theorem merge_within {ε : ℝ} {d : Nat → ℝ} {h : Nat} {rows1 rows2 : Nat → Prop} {a b : Fl ℝ} {i j : Int} (h1 : IsNearestWithin ε d h rows1 a i)
    (h2 : IsNearestWithin ε d h rows2 b j) :
    IsNearestWithin ε d h (fun r => rows1 r ∨ rows2 r) (if Fl.ltF a b then a else b) (if Fl.ltF a b then i else j) := by
  rcases h1 with ⟨rfl, e1⟩ | ⟨r, hr, e1, rfl, y, rfl, e3, e4⟩
  · rcases h2 with ⟨rfl, f1⟩ | ⟨r', hr', f1, rfl, z, rfl, f3, f4⟩
    · rw [if_neg (by rw [Fl.ltF_iff]; simp), if_neg (by rw [Fl.ltF_iff]; simp)]
      exact .inl ⟨rfl, fun r hr hn => hn.elim (e1 r hr) (f1 r hr)⟩
    · rw [if_neg (by rw [Fl.ltF_iff]; simp), if_neg (by rw [Fl.ltF_iff]; simp)]
      exact .inr ⟨r', hr', .inr f1, rfl, z, rfl, f3, fun r hr hn => hn.elim (fun hn => absurd hn (e1 r hr)) (f4 r hr)⟩
  · rcases h2 with ⟨rfl, f1⟩ | ⟨r', hr', f1, rfl, z, rfl, f3, f4⟩
    · rw [if_pos (by rw [Fl.ltF_iff]; simp), if_pos (by rw [Fl.ltF_iff]; simp)]
      exact .inr ⟨r, hr, .inl e1, rfl, y, rfl, e3, fun r hr hn => hn.elim (e4 r hr) (fun hn => absurd hn (f1 r hr))⟩
    · by_cases hlt : y < z
      · rw [if_pos (by rw [Fl.ltF_iff]; simpa using hlt), if_pos (by rw [Fl.ltF_iff]; simpa using hlt)]
        exact .inr ⟨r, hr, .inl e1, rfl, y, rfl, e3, fun r hr hn => hn.elim (e4 r hr) (fun hn => by have := f4 r hr hn; linarith)⟩
      · rw [if_neg (by rw [Fl.ltF_iff]; simpa using hlt), if_neg (by rw [Fl.ltF_iff]; simpa using hlt)]
        exact .inr ⟨r', hr', .inr f1, rfl, z, rfl, f3, fun r hr hn => hn.elim (fun hn => by have := e4 r hr hn; linarith) (f4 r hr)⟩

/-! ### Calls with values near those of a matrix -/

/-- A call on a window of `h` rows and `w` columns, columns complete: values at most `ε` away from those of `A` where `far`, `+inf` elsewhere. -/
structure DelWithin (ε : ℝ) (A : Nat → Nat → ℝ) (h w : Nat) (far : Nat → Nat → Prop) (d : Delivery ℝ) : Prop where
  valid : d.Valid h w
  noShift : ∀ n, d ≠ .shiftSeries n ∧ d ≠ .shiftQuery n
  full : ∀ c vals, d = .column c vals → vals.length = h
  cells : ∀ x ∈ d.cells 0 0, (x.val = .pinf ∧ ¬ far x.row.toNat x.col.toNat) ∨
    (far x.row.toNat x.col.toNat ∧ ∃ y, x.val = .fin y ∧ |y - A x.row.toNat x.col.toNat| ≤ ε)

/-- The pair (`r`, `c`) was delivered. -/
def Shown (d : Delivery ℝ) (r c : Nat) : Prop := ∃ x ∈ d.cells 0 0, x.row = (r : Int) ∧ x.col = (c : Int) ∧ x.val ≠ .pinf

theorem cells_range {h w : Nat} {d : Delivery K} (hd : d.Valid h w) : ∀ x ∈ d.cells 0 0, ∃ r c : Nat, r < h ∧ c < w ∧ x.row = (r : Int) ∧ x.col = (c : Int) := by
  intro x hx
  cases d with
  | diag d v =>
    obtain ⟨k, h1, h2, h3⟩ := cells_diag d v x hx
    obtain ⟨v1, v2⟩ := hd
    have := (List.getElem?_eq_some_iff.mp h1).1
    exact ⟨_, _, by omega, by omega, h2, h3⟩
  | column c v =>
    obtain ⟨z, hz, rfl⟩ := List.mem_map.mp hx
    rw [List.mem_zipIdx_iff_getElem?] at hz
    obtain ⟨v1, v2, v3⟩ := hd
    have := (List.getElem?_eq_some_iff.mp hz).1
    exact ⟨_, _, by omega, by simpa using v1, rfl, rfl⟩
  | shiftSeries n => simp [Delivery.cells] at hx
  | shiftQuery n => simp [Delivery.cells] at hx

theorem mem_cells_column {c : Nat} {v : List (Fl K)} (x : Cell K) :
    x ∈ (Delivery.column c v).cells 0 0 ↔ ∃ r : Nat, v[r]? = some x.val ∧ x.row = (r : Int) ∧ x.col = (c : Int) := by
  constructor
  · intro hx
    obtain ⟨z, hz, rfl⟩ := List.mem_map.mp hx
    rw [List.mem_zipIdx_iff_getElem?] at hz
    exact ⟨z.2, hz, by simp, by simp⟩
  · rintro ⟨r, h1, h2, h3⟩
    obtain ⟨a, b, v⟩ := x
    simp only at h1 h2 h3
    refine List.mem_map.mpr ⟨(v, r), ?_, ?_⟩
    · rw [List.mem_zipIdx_iff_getElem?]; exact h1
    · simp [h2, h3]

/-- Both profiles after calls that showed the pairs `S`. -/
def MP.Within (ε : ℝ) (A : Nat → Nat → ℝ) (h w : Nat) (S : Nat → Nat → Prop) (p : MP ℝ) : Prop :=
  ∃ l r, p.Rep h w l r ∧ ∀ c < w, IsNearestWithin ε (fun r => A r c) h (fun r => S r c ∧ r ≤ c) (l c).1 (l c).2 ∧
    IsNearestWithin ε (fun r => A r c) h (fun r => S r c ∧ c < r) (r c).1 (r c).2

theorem MP.deliver_within {ε : ℝ} {A : Nat → Nat → ℝ} {h w : Nat} {far S : Nat → Nat → Prop} {p : MP ℝ} (hp : p.Within ε A h w S)
    (hS : ∀ r < h, ∀ c, S r c → far r c) {d : Delivery ℝ} (hd : DelWithin ε A h w far d) :
    ∃ p', p.deliver d = .ok p' ∧ p'.Within ε A h w (fun r c => S r c ∨ Shown d r c) := by
  obtain ⟨l, r, hrep, hlr⟩ := hp
  have hent : ∀ (c : Nat) (left : Bool) (e : Fl ℝ × Int), e ∈ entriesFor (d.cells 0 0) c left →
      e.1 = .pinf ∨ ∃ r < h, (far r c ∧ decide (r ≤ c) = left) ∧ ∃ y, e = (.fin y, (r : Int)) ∧ |y - A r c| ≤ ε := by
    rintro c left ⟨v, i⟩ he
    obtain ⟨h1, h2⟩ := (mem_entriesFor _ _ _ _ _).mp he
    obtain ⟨r', c', g1, g2, g3, g4⟩ := cells_range hd.valid _ h1
    simp only at g3 g4
    obtain rfl : c = c' := by exact_mod_cast g4
    subst g3
    have h2 : decide (r' ≤ c) = left := by rw [← h2]; simp
    rcases hd.cells _ h1 with ⟨h3, -⟩ | ⟨h3, y, h4, h5⟩
    · exact .inl h3
    · simp only [Int.toNat_natCast] at h3 h4 h5
      exact .inr ⟨r', g1, ⟨h3, h2⟩, y, by rw [h4], h5⟩
  have hshown : ∀ (r c : Nat) (left : Bool), decide (r ≤ c) = left →
      ((∃ e ∈ entriesFor (d.cells 0 0) c left, e.2 = (r : Int) ∧ e.1 ≠ .pinf) ↔ Shown d r c) := by
    intro r c left hl
    constructor
    · rintro ⟨⟨v, i⟩, h1, h2, h3⟩
      simp only at h2 h3
      subst h2
      exact ⟨_, ((mem_entriesFor _ _ _ _ _).mp h1).1, rfl, rfl, h3⟩
    · rintro ⟨⟨a, b, v⟩, h1, h2, h3, h4⟩
      simp only at h2 h3 h4
      subst h2 h3
      exact ⟨(v, (r : Int)), (mem_entriesFor _ _ _ _ _).mpr ⟨h1, by rw [← hl]; simp⟩, rfl, h4⟩
  cases hdd : d with
  | shiftSeries n => exact absurd hdd (hd.noShift n).1
  | shiftQuery n => exact absurd hdd (hd.noShift n).2
  | diag k vals =>
    obtain ⟨p', h1, h2⟩ := MP.processDiagonal_rep hrep k vals (by rw [← hdd]; exact hd.valid) (fun _ _ => rfl) (fun _ _ => rfl)
    rw [← hdd] at h2
    refine ⟨p', h1, _, _, h2, fun c hc => ?_⟩
    obtain ⟨g1, g2⟩ := hlr c hc
    rw [← hdd]
    constructor
    · refine (fold_within _ g1 fun e he => ?_).congr fun r' hr' => ?_
      · rcases hent c true e he with h3 | ⟨r', h3, -, h5⟩
        · exact .inl h3
        · exact .inr ⟨r', h3, h5⟩
      · by_cases hle : r' ≤ c
        · rw [hshown r' c true (by simpa using hle)]; tauto
        · constructor
          · rintro (h3 | ⟨e, h3, h4, h5⟩)
            · exact absurd h3.2 hle
            · rcases hent c true e h3 with h6 | ⟨r'', -, ⟨-, h6⟩, y, h7, -⟩
              · exact absurd h6 h5
              · rw [h7] at h4
                obtain rfl : r'' = r' := by simpa using h4
                exact absurd (by simpa using h6) hle
          · exact fun h3 => absurd h3.2 hle
    · refine (fold_within _ g2 fun e he => ?_).congr fun r' hr' => ?_
      · rcases hent c false e he with h3 | ⟨r', h3, -, h5⟩
        · exact .inl h3
        · exact .inr ⟨r', h3, h5⟩
      · by_cases hle : c < r'
        · rw [hshown r' c false (by simpa using hle)]; tauto
        · constructor
          · rintro (h3 | ⟨e, h3, h4, h5⟩)
            · exact absurd h3.2 hle
            · rcases hent c false e h3 with h6 | ⟨r'', -, ⟨-, h6⟩, y, h7, -⟩
              · exact absurd h6 h5
              · rw [h7] at h4
                obtain rfl : r'' = r' := by simpa using h4
                exact absurd (by simpa using h6) hle
          · exact fun h3 => absurd h3.2 hle
  | column k vals =>
    have hv := hd.valid
    have hfull := hd.full k vals hdd
    rw [hdd] at hv
    have hclean : (Delivery.column k vals).ColumnClean := by
      intro hn
      obtain ⟨r', h1⟩ := List.mem_iff_getElem?.mp hn
      rcases hd.cells ⟨(r' : Int), (k : Int), .nan⟩ (by rw [hdd, mem_cells_column]; exact ⟨r', h1, rfl, rfl⟩) with ⟨h2, -⟩ | ⟨-, y, h2, -⟩ <;> simp at h2
    obtain ⟨p', l', r', h1, h2, h3, h4, -, h5, h6⟩ := MP.processColumn_rep hrep k vals hv hclean
    rw [← hdd] at h4 h6
    have hfar : ∀ r' < h, (S r' k ∨ Shown d r' k) ↔ far r' k := by
      intro r' hr'
      constructor
      · rintro (h7 | ⟨x, h7, h8, h9, h10⟩)
        · exact hS r' hr' k h7
        · rcases hd.cells x h7 with ⟨h11, -⟩ | ⟨h11, -⟩
          · exact absurd h11 h10
          · simpa [h8, h9] using h11
      · intro h7
        right
        have h8 : vals[r']? = some vals[r'] := List.getElem?_eq_getElem (by omega)
        have h9 : (⟨(r' : Int), (k : Int), vals[r']⟩ : Cell ℝ) ∈ d.cells 0 0 := by rw [hdd, mem_cells_column]; exact ⟨r', h8, rfl, rfl⟩
        refine ⟨_, h9, rfl, rfl, fun h10 => ?_⟩
        rcases hd.cells _ h9 with ⟨-, h11⟩ | ⟨-, y, h11, -⟩
        · exact h11 (by simpa using h7)
        · simp only at h10 h11
          rw [h10] at h11; simp at h11
    have hmin : ∀ (left : Bool) (v : Fl ℝ × Int), IsMin (entriesFor (d.cells 0 0) k left) v.1 v.2 →
        IsNearestWithin ε (fun r => A r k) h (fun r => (S r k ∨ Shown d r k) ∧ decide (r ≤ k) = left) v.1 v.2 := by
      intro left v hm
      refine min_within hm (fun e he => ?_) fun r' hr' hn => ?_
      · rcases hent k left e he with h7 | ⟨r', h7, h8, h9⟩
        · exact .inl h7
        · exact .inr ⟨r', h7, ⟨(hfar r' h7).mpr h8.1, h8.2⟩, h9⟩
      · obtain ⟨x, h7⟩ : Shown d r' k := by
          have h8 : vals[r']? = some vals[r'] := List.getElem?_eq_getElem (by omega)
          have h9 : (⟨(r' : Int), (k : Int), vals[r']⟩ : Cell ℝ) ∈ d.cells 0 0 := by rw [hdd, mem_cells_column]; exact ⟨r', h8, rfl, rfl⟩
          refine ⟨_, h9, rfl, rfl, fun h10 => ?_⟩
          rcases hd.cells _ h9 with ⟨-, h11⟩ | ⟨-, y, h11, -⟩
          · exact h11 (by simpa using (hfar r' hr').mp hn.1)
          · simp only at h10 h11
            rw [h10] at h11; simp at h11
        exact (hshown r' k left hn.2).mpr ⟨x, h7⟩
    refine ⟨p', h1, l', r', h2, fun c hc => ?_⟩
    rw [← hdd]
    by_cases hck : c = k
    · subst hck
      refine ⟨(hmin true _ h4).congr fun r' _ => by simp, ?_⟩
      by_cases hlen : c + 1 < vals.length
      · exact (hmin false _ (h6 hlen)).congr fun r' _ => by simp
      · rw [h5 (by omega)]
        refine (hlr c hc).2.congr fun r' hr' => ?_
        constructor <;> (intro h7; have := h7.2; omega)
    · obtain ⟨h7, h8⟩ := h3 c hck
      have hno : ∀ r', ¬ Shown d r' c := by
        rintro r' ⟨x, g1, -, g2, -⟩
        rw [hdd, mem_cells_column] at g1
        obtain ⟨-, -, -, g3⟩ := g1
        rw [g2] at g3
        exact hck (by exact_mod_cast g3)
      rw [h7, h8]
      obtain ⟨g1, g2⟩ := hlr c hc
      exact ⟨g1.congr fun r' _ => by simp [hno], g2.congr fun r' _ => by simp [hno]⟩

theorem MP.run_within {ε : ℝ} {A : Nat → Nat → ℝ} {h w : Nat} {far : Nat → Nat → Prop} (ds : List (Delivery ℝ)) :
    ∀ {S : Nat → Nat → Prop} {p : MP ℝ}, p.Within ε A h w S → (∀ r < h, ∀ c, S r c → far r c) → (∀ d ∈ ds, DelWithin ε A h w far d) →
    ∃ p', p.run ds = .ok p' ∧ p'.Within ε A h w (fun r c => S r c ∨ ∃ d ∈ ds, Shown d r c) := by
  induction ds with
  | nil =>
    intro S p hp _ _
    obtain ⟨l, r, h1, h2⟩ := hp
    exact ⟨p, rfl, l, r, h1, fun c hc => ⟨(h2 c hc).1.congr fun r _ => by simp, (h2 c hc).2.congr fun r _ => by simp⟩⟩
  | cons d ds ih =>
    intro S p hp hS hd
    obtain ⟨p1, h1, h2⟩ := MP.deliver_within hp hS (hd d (by simp))
    obtain ⟨p', h3, l, r, h4, h5⟩ := ih h2 (by
      rintro r hr c (h | ⟨x, g1, g2, g3, g4⟩)
      · exact hS r hr c h
      · rcases (hd d (by simp)).cells x g1 with ⟨g5, -⟩ | ⟨g5, -⟩
        · exact absurd g5 g4
        · simpa [g2, g3] using g5) (fun d h => hd d (by simp [h]))
    refine ⟨p', ?_, l, r, h4, fun c hc => ⟨(h5 c hc).1.congr fun r' _ => ?_, (h5 c hc).2.congr fun r' _ => ?_⟩⟩
    · rw [MP.run, List.foldlM_cons, h1]
      exact h3
    · simp only [List.mem_cons, exists_eq_or_imp]; tauto
    · simp only [List.mem_cons, exists_eq_or_imp]; tauto

/-! ### Whole calculations -/

/-- The same call with related values. -/
def NearDel (R : Fl K → Fl K → Prop) (d d' : Delivery K) : Prop :=
  (∃ k v v', d = .diag k v ∧ d' = .diag k v' ∧ List.Forall₂ R v v') ∨ ∃ c v v', d = .column c v ∧ d' = .column c v' ∧ List.Forall₂ R v v'

theorem nearCall_deliveries {Rel : Nat → Fl K → Fl K → Prop} {id : Nat} (ds : List (Delivery K)) : ∀ {es : List (CEvent K)},
    List.Forall₂ (NearCall Rel [id]) (ds.map Delivery.event) es → ∃ ds', es = ds'.map Delivery.event ∧ List.Forall₂ (NearDel (Rel id)) ds ds' := by
  induction ds with
  | nil => intro es h; cases h; exact ⟨[], rfl, .nil⟩
  | cons d ds ih =>
    intro es h
    obtain ⟨e', es', h1, h2, rfl⟩ := List.forall₂_cons_left_iff.mp h
    obtain ⟨ds', rfl, h3⟩ := ih h2
    have : ∃ d', e' = Delivery.event d' ∧ NearDel (Rel id) d d' := by
      rcases h1 with ⟨c, F, F', e1, e2, e3⟩ | ⟨c, F, F', e1, e2, e3⟩
      · cases d with
        | diag k v => simp [Delivery.event] at e1
        | column k v =>
          simp only [Delivery.event, CEvent.column.injEq, List.map_cons, List.map_nil, List.cons.injEq, and_true] at e1
          obtain ⟨rfl, rfl⟩ := e1
          exact ⟨.column k (F' id), by rw [e2]; rfl, .inr ⟨k, _, _, rfl, rfl, e3 id (by simp)⟩⟩
        | shiftSeries n => simp [Delivery.event] at e1
        | shiftQuery n => simp [Delivery.event] at e1
      · cases d with
        | diag k v =>
          simp only [Delivery.event, CEvent.diagonal.injEq, List.map_cons, List.map_nil, List.cons.injEq, and_true] at e1
          obtain ⟨rfl, rfl⟩ := e1
          exact ⟨.diag k (F' id), by rw [e2]; rfl, .inl ⟨k, _, _, rfl, rfl, e3 id (by simp)⟩⟩
        | column k v => simp [Delivery.event] at e1
        | shiftSeries n => simp [Delivery.event] at e1
        | shiftQuery n => simp [Delivery.event] at e1
    obtain ⟨d', rfl, h4⟩ := this
    exact ⟨d' :: ds', rfl, .cons h4 h3⟩

theorem forall₂_zipIdx {R : Fl K → Fl K → Prop} {v v' : List (Fl K)} (h : List.Forall₂ R v v') {i : Nat} {y : Fl K} (hy : v'[i]? = some y) :
    ∃ x, v[i]? = some x ∧ R x y := by
  obtain ⟨hi, rfl⟩ := List.getElem?_eq_some_iff.mp hy
  have hl := h.length_eq
  exact ⟨v[i], List.getElem?_eq_getElem (by omega), (List.forall₂_iff_get.mp h).2 i (by omega) hi⟩

theorem NearDel.cells {R : Fl K → Fl K → Prop} {d d' : Delivery K} (h : NearDel R d d') : ∀ x' ∈ d'.cells 0 0, ∃ x ∈ d.cells 0 0,
    x.row = x'.row ∧ x.col = x'.col ∧ R x.val x'.val := by
  intro x' hx'
  rcases h with ⟨k, v, v', rfl, rfl, h⟩ | ⟨k, v, v', rfl, rfl, h⟩ <;>
  · obtain ⟨z, hz, rfl⟩ := List.mem_map.mp hx'
    rw [List.mem_zipIdx_iff_getElem?] at hz
    obtain ⟨x, h1, h2⟩ := forall₂_zipIdx h hz
    exact ⟨_, List.mem_map.mpr ⟨(x, z.2), by rw [List.mem_zipIdx_iff_getElem?]; exact h1, rfl⟩, rfl, rfl, h2⟩

theorem NearDel.flip {R : Fl K → Fl K → Prop} {d d' : Delivery K} (h : NearDel R d d') : NearDel (fun a b => R b a) d' d := by
  rcases h with ⟨k, v, v', rfl, rfl, h⟩ | ⟨k, v, v', rfl, rfl, h⟩
  · exact .inl ⟨k, v', v, rfl, rfl, h.flip⟩
  · exact .inr ⟨k, v', v, rfl, rfl, h.flip⟩

/-- The values of deliveries. -/
theorem CellsAre.val {A : Nat → Nat → Fl K} {h w : Nat} {far : Nat → Nat → Prop} {ds : List (Delivery K)} (hcells : CellsAre A h w far ds) :
    ∀ d ∈ ds, ∀ x ∈ d.cells 0 0, x.val = A x.row.toNat x.col.toNat := by
  intro d hd x hx
  have ho := hcells.of d hd
  cases d with
  | diag k v =>
    obtain ⟨i, e1, e2, e3⟩ := cells_diag k v x hx
    have e4 : x.row.toNat = (-k).toNat + i := by omega
    have e5 : x.col.toNat = k.toNat + i := by omega
    rw [e4, e5]
    exact ho i _ e1
  | column c v =>
    obtain ⟨i, e1, e2, e3⟩ := (mem_cells_column x).mp hx
    rw [e2, e3]
    have ho : v = (List.range h).map fun r => A r c := ho
    rw [ho, List.getElem?_map] at e1
    obtain ⟨j, e4, e5⟩ := Option.map_eq_some_iff.mp e1
    obtain ⟨e6, e7⟩ := List.getElem?_eq_some_iff.mp e4
    simp only [List.getElem_range] at e7
    subst e7
    simpa using e5.symm
  | shiftSeries n => exact absurd ho (by simp [Delivery.Of])
  | shiftQuery n => exact absurd ho (by simp [Delivery.Of])

/-- The values of calls near the exact ones: `+inf`, or near the distance of a calculated pair. -/
theorem BatchCase.Any.near_done {B : BatchCase α} {idss : List (List Nat)} (hB : B.Any idss) {id : Nat} (hid : id < B.kinds.length) {ε : ℝ}
    {ds : List (Delivery ℝ)} (hds : List.Forall₂ (NearDel (CloseVal ε)) (B.dels id) ds) :
    List.Forall₂ (NearDel fun x y => (x = .pinf ∧ y = .pinf) ∨ ∃ r c, r < B.h ∧ c < B.w ∧ B.done r c ∧ x = .fin (B.value id r c) ∧
      ∃ z, y = .fin z ∧ |z - B.value id r c| ≤ ε) (B.dels id) ds := by
  have hcells := hB.cells hid
  have hone : ∀ d ∈ B.dels id, ∀ x ∈ d.cells 0 0, ∀ y, CloseVal ε x.val y → (x.val = .pinf ∧ y = .pinf) ∨
      ∃ r c, r < B.h ∧ c < B.w ∧ B.done r c ∧ x.val = .fin (B.value id r c) ∧ ∃ z, y = .fin z ∧ |z - B.value id r c| ≤ ε := by
    intro d hd x hx y hy
    rcases hcells.sound d hd x hx with h | h
    · rw [h] at hy
      rcases hy with ⟨-, hy⟩ | ⟨a, b, hy, -⟩
      · exact .inl ⟨h, hy⟩
      · cases hy
    · obtain ⟨r, c, h1, h2, h3, h4⟩ := cells_range (hcells.valid d hd) x hx
      have h5 := hcells.val d hd x hx
      rw [h3, h4, Int.toNat_natCast, Int.toNat_natCast] at h h5
      rw [hB.masked_done h] at h5
      rw [h5] at hy
      rcases hy with ⟨hy, -⟩ | ⟨a, z, hy, e1, -, e2⟩
      · cases hy
      · cases hy
        exact .inr ⟨r, c, h1, h2, h, h5, z, e1, e2⟩
  have hl := hds.length_eq
  rw [List.forall₂_iff_get] at hds ⊢
  refine ⟨hl, fun i hi hi' => ?_⟩
  have hd := List.get_mem (B.dels id) ⟨i, hi⟩
  have h1 := hds.2 i hi hi'
  generalize (B.dels id).get ⟨i, hi⟩ = d at hd h1
  generalize ds.get ⟨i, hi'⟩ = d' at h1
  have hl2 : ∀ {v v' : List (Fl ℝ)} (f : Nat → Cell ℝ), List.Forall₂ (CloseVal ε) v v' → (∀ j (hj : j < v.length), f j ∈ d.cells 0 0 ∧ (f j).val = v[j]) →
      List.Forall₂ (fun x y => (x = .pinf ∧ y = .pinf) ∨ ∃ r c, r < B.h ∧ c < B.w ∧ B.done r c ∧ x = .fin (B.value id r c) ∧
        ∃ z, y = .fin z ∧ |z - B.value id r c| ≤ ε) v v' := by
    intro v v' f h hf
    rw [List.forall₂_iff_get] at h ⊢
    refine ⟨h.1, fun j hj hj' => ?_⟩
    obtain ⟨f1, f2⟩ := hf j hj
    have := h.2 j hj hj'
    simp only [List.get_eq_getElem] at this ⊢
    rw [← f2] at this ⊢
    exact hone d hd _ f1 _ this
  rcases h1 with ⟨k, v, v', rfl, rfl, h⟩ | ⟨k, v, v', rfl, rfl, h⟩
  · refine .inl ⟨k, v, v', rfl, rfl, hl2 (fun j => ⟨_, _, v.getD j .pinf⟩) h fun j hj => ⟨List.mem_map.mpr ⟨(v.getD j .pinf, j), ?_, rfl⟩, ?_⟩⟩
    · rw [List.mem_zipIdx_iff_getElem?]
      simp [List.getD_eq_getElem?_getD, hj]
    · simp [List.getD_eq_getElem?_getD, hj]
  · refine .inr ⟨k, v, v', rfl, rfl, hl2 (fun j => ⟨_, _, v.getD j .pinf⟩) h fun j hj => ⟨List.mem_map.mpr ⟨(v.getD j .pinf, j), ?_, rfl⟩, ?_⟩⟩
    · rw [List.mem_zipIdx_iff_getElem?]
      simp [List.getD_eq_getElem?_getD, hj]
    · simp [List.getD_eq_getElem?_getD, hj]

/-- Profiles up to errors of `ε`: each entry is within `ε` of a distance, and no distance is smaller by more than `ε`. -/
structure Spec.IsProfileWithin (ε : ℝ) (d : Nat → Nat → ℝ) (h w : Nat) (far : Nat → Nat → Prop) (p : MP ℝ) : Prop where
  lengths : p.left.length = w ∧ p.right.length = w
  entries : ∀ c < w, ∃ l r v li ri i, p.left[c]? = some l ∧ p.right[c]? = some r ∧ (MP.merged p.left p.right)[c]? = some v ∧
    p.leftIdx[c]? = some li ∧ p.rightIdx[c]? = some ri ∧ (MP.mergedIdx p.left p.right p.leftIdx p.rightIdx)[c]? = some i ∧
    IsNearestWithin ε (fun r => d r c) h (fun r => far r c ∧ r ≤ c) l li ∧ IsNearestWithin ε (fun r => d r c) h (fun r => far r c ∧ c < r) r ri ∧
    IsNearestWithin ε (fun r => d r c) h (fun r => far r c) v i

/-- A profile that has received calls near those of the exact calculation. -/
theorem BatchCase.Any.profile_within {B : BatchCase α} {idss : List (List Nat)} (hB : B.Any idss) {id : Nat} (hid : id < B.kinds.length) {ε : ℝ}
    {ds : List (Delivery ℝ)} (hds : List.Forall₂ (NearDel (CloseVal ε)) (B.dels id) ds) :
    ∃ p p' : MP ℝ, MP.initialise (B.h : Int) (B.w : Int) = .ok p ∧ p.run ds = .ok p' ∧ IsProfileWithin ε (B.value id) B.h B.w B.done p' := by
  have hcells := hB.cells hid
  obtain ⟨p, h1, h2⟩ := MP.initialise_rep (K := ℝ) B.h B.w
  have hmem : ∀ d' ∈ ds, ∃ d ∈ B.dels id, NearDel (CloseVal ε) d d' := fun d' hd' => by
    obtain ⟨i, hi⟩ := List.mem_iff_getElem?.mp hd'
    obtain ⟨hi', e⟩ := List.getElem?_eq_some_iff.mp hi
    have hl := hds.length_eq
    refine ⟨(B.dels id)[i], List.getElem_mem _, ?_⟩
    rw [← e]
    exact (List.forall₂_iff_get.mp hds).2 i (by omega) hi'
  have hmem' : ∀ d ∈ B.dels id, ∃ d' ∈ ds, NearDel (CloseVal ε) d d' := fun d' hd' => by
    obtain ⟨i, hi⟩ := List.mem_iff_getElem?.mp hd'
    obtain ⟨hi', e⟩ := List.getElem?_eq_some_iff.mp hi
    have hl := hds.length_eq
    refine ⟨ds[i], List.getElem_mem _, ?_⟩
    rw [← e]
    exact (List.forall₂_iff_get.mp hds).2 i hi' (by omega)
  have hval := hcells.val
  set far : Nat → Nat → Prop := fun r c => ¬ ((r : Int) - c ≤ B.b ∧ (c : Int) - r ≤ B.b) with hfar
  have hdel : ∀ d' ∈ ds, DelWithin ε (B.value id) B.h B.w far d' := by
    intro d' hd'
    obtain ⟨d, h3, h4⟩ := hmem d' hd'
    have hv := hcells.valid d h3
    have ho := hcells.of d h3
    refine ⟨?_, ?_, ?_, ?_⟩
    · rcases h4 with ⟨k, v, v', rfl, rfl, h⟩ | ⟨k, v, v', rfl, rfl, h⟩
      · have := h.length_eq
        obtain ⟨v1, v2⟩ := hv
        exact ⟨by omega, by omega⟩
      · have := h.length_eq
        obtain ⟨v1, v2, v3⟩ := hv
        exact ⟨v1, by rw [← List.length_pos_iff]; have := List.length_pos_iff.mpr v2; omega, by omega⟩
    · intro n
      rcases h4 with ⟨k, v, v', rfl, rfl, h⟩ | ⟨k, v, v', rfl, rfl, h⟩ <;> simp
    · rintro c vals rfl
      rcases h4 with ⟨k, v, v', rfl, e, h⟩ | ⟨k, v, v', rfl, e, h⟩
      · cases e
      · cases e
        have ho : v = (List.range B.h).map fun r => B.masked id r c := ho
        have := h.length_eq
        rw [ho] at this
        simpa using this.symm
    · intro x' hx'
      obtain ⟨x, h5, h6, h7, h8⟩ := h4.cells x' hx'
      have h9 := hval d h3 x h5
      rw [← h6, ← h7]
      unfold BatchCase.masked at h9
      by_cases hb : (x.row.toNat : Int) - x.col.toNat ≤ B.b ∧ (x.col.toNat : Int) - x.row.toNat ≤ B.b
      · rw [if_pos hb] at h9
        rw [h9] at h8
        rcases h8 with ⟨-, h8⟩ | ⟨a, b, h8, -⟩
        · exact .inl ⟨h8, fun hn => hn hb⟩
        · cases h8
      · rw [if_neg hb] at h9
        rw [h9] at h8
        rcases h8 with ⟨h8, -⟩ | ⟨a, b, h8, h10, -, h11⟩
        · cases h8
        · cases h8
          exact .inr ⟨hb, b, h10, h11⟩
  obtain ⟨p', h3, l, r, h4, h5⟩ := MP.run_within ds (S := fun _ _ => False) (p := p) ⟨_, _, h2, fun c _ => ⟨.inl ⟨rfl, by simp⟩, .inl ⟨rfl, by simp⟩⟩⟩
    (by simp) hdel
  have hshown : ∀ r < B.h, ∀ c < B.w, (False ∨ ∃ d ∈ ds, Shown d r c) ↔ B.done r c := by
    intro r hr c hc
    rw [false_or]
    constructor
    · rintro ⟨d', g1, x', g2, g3, g4, g5⟩
      obtain ⟨d, g6, g7⟩ := hmem d' g1
      obtain ⟨x, g8, g9, g10, g11⟩ := g7.cells x' g2
      rcases hcells.sound d g6 x g8 with g12 | g12
      · rw [g12] at g11
        rcases g11 with ⟨-, g11⟩ | ⟨a, b, g11, -⟩
        · exact absurd g11 g5
        · cases g11
      · rw [g9, g10, g3, g4] at g12
        simpa using g12
    · intro hd
      obtain ⟨d, g1, x, g2, g3, g4⟩ := hcells.complete r hr c hc hd
      obtain ⟨d', g5, g6⟩ := hmem' d g1
      obtain ⟨x', g7, g8, g9, g10⟩ := g6.flip.cells x g2
      refine ⟨d', g5, x', g7, by rw [g8, g3], by rw [g9, g4], fun g11 => ?_⟩
      have g12 := hval d g1 x g2
      rw [g3, g4, Int.toNat_natCast, Int.toNat_natCast, hB.masked_done hd] at g12
      rw [g11, g12] at g10
      rcases g10 with ⟨g10, -⟩ | ⟨a, b, -, g10, -⟩ <;> cases g10
  refine ⟨p, p', h1, h3, ⟨h4.left.len.1, h4.right.len.1⟩, fun c hc => ?_⟩
  obtain ⟨a1, a2⟩ := h4.left.get hc
  obtain ⟨b1, b2⟩ := h4.right.get hc
  obtain ⟨m1, m2⟩ := MP.merged_get _ _ _ _ c _ _ _ _ a1 b1 a2 b2
  obtain ⟨n1, n2⟩ := h5 c hc
  refine ⟨_, _, _, _, _, _, a1, b1, m1, a2, b2, m2, n1.congr fun r hr => ?_, n2.congr fun r hr => ?_, (merge_within n1 n2).congr fun r hr => ?_⟩
  · exact and_congr_left' (hshown r hr c hc)
  · exact and_congr_left' (hshown r hr c hc)
  · refine Iff.trans (or_congr (and_congr_left' (hshown r hr c hc)) (and_congr_left' (hshown r hr c hc))) ?_
    have := Nat.lt_or_ge c r
    constructor
    · rintro (h | h) <;> exact h.1
    · intro h; exact this.elim (fun e => .inr ⟨h, e⟩) (fun e => .inl ⟨h, e⟩)

/-- **C88, calls.** An `AnytimeCalculator` with any channels, generators and consumers, computing in floating point: no call raises, and every consumer
receives exactly the calls of the calculation without rounding, with values that differ by at most `B.floatErr`. -/
theorem C88_calls (B : BatchCase α) (F : FloatEnv) (b : FloatBounds) (idss : List (List Nat)) (hB : B.FloatOk F b idss) :
    ∃ cons', B.floatResult F recorder (idss.map fun ids => ([], ids)) = .ok cons' ∧
      List.Forall₂ (fun ids c => c.2 = ids ∧ List.Forall₂ (NearCall (fun id => CloseVal (B.floatErr F b id)) ids) (B.events ids) c.1) idss cons' :=
  BatchCase.floatConsumers recorder (fun _ => rfl) idss (fun ids => ([], ids)) (by simpa using hB) _ fun ids _ =>
    ⟨[], rfl, fun es hes => ⟨es, by rw [recorder_feed, List.nil_append], hes⟩⟩

/-- **C88, profiles.** `MatrixProfileLR` consumers of an `AnytimeCalculator` with any channels and generators, computing in floating point, after any sequence
of (partial, possibly interrupted) `calculate_diagonals` and `calculate_columns` calls: every entry of a profile is the distance to the subsequence of
the query named by the index, up to an error of `B.floatErr`, and no calculated pair is closer by more than this error. -/
theorem C88_profile (B : BatchCase α) (F : FloatEnv) (b : FloatBounds) (ids : List Nat) (hB : B.FloatOk F b (ids.map fun id => [id])) :
    ∃ cons', B.floatResult F MP.ops (ids.map fun id => (MP.new, [id])) = .ok cons' ∧
      List.Forall₂ (fun id c => c.2 = [id] ∧ IsProfileWithin (B.floatErr F b id) (B.value id) B.h B.w B.done c.1) ids cons' := by
  refine BatchCase.floatConsumers MP.ops (fun _ => rfl) ids (fun id => ((MP.new : MP ℝ), [id])) hB
    (fun id p => IsProfileWithin (B.floatErr F b id) (B.value id) B.h B.w B.done p) fun id hid => ?_
  have hlt := hB.id_lt (List.mem_map_of_mem hid) (by simp : id ∈ [id])
  obtain ⟨p0, h1, -⟩ := MP.initialise_rep (K := ℝ) B.h B.w
  refine ⟨p0, h1, fun es hes => ?_⟩
  rw [BatchCase.events_single] at hes
  obtain ⟨ds, rfl, hds⟩ := nearCall_deliveries _ hes
  obtain ⟨p, p', h2, h3, h4⟩ := hB.toAny.profile_within hlt hds
  rw [h1] at h2
  cases h2
  refine ⟨p', ?_, h4⟩
  rw [MP.feed_eq _ _ ?_, h3]
  intro d hd n
  obtain ⟨i, hi⟩ := List.mem_iff_getElem?.mp hd
  obtain ⟨hi', e⟩ := List.getElem?_eq_some_iff.mp hi
  have hl := hds.length_eq
  have := (List.forall₂_iff_get.mp hds).2 i (by omega) hi'
  simp only [List.get_eq_getElem, e] at this
  rcases this with ⟨k, v, v', -, rfl, -⟩ | ⟨k, v, v', -, rfl, -⟩ <;> simp

end Verif
