import Verif.Model.RoundedZNorm

/-!
# The floating point models without rounding are the models of `Model/Euclidean.lean` and `Model/ZNormEuclidean.lean`
-/

namespace Verif

namespace Rounded
variable {K : Type} [Field K] [LinearOrder K]

omit [Field K] [LinearOrder K] in
theorem fl_id : fl (fun x : K => x) = fun v => v := by funext v; cases v <;> rfl

theorem add_id : add (fun x : K => x) = Fl.add := by funext a b; unfold add; rw [fl_id]

theorem sub_id : sub (fun x : K => x) = Fl.sub := by funext a b; unfold sub; rw [fl_id]

theorem square_id : square (fun x : K => x) = Fl.square := by funext a; unfold square; rw [fl_id]

/-- Without rounding, this is the model of `calc_diagonal` in `Model/Euclidean.lean`. -/
theorem calcDiagonal_id (sq : K → K) (g : ColCache K) (d : Int) : calcDiagonal (fun x => x) sq g d = Eucl.calcDiagonal sq g d := by
  have h : cumsum0 (fun x : K => x) = Verif.cumsum0 := by
    funext dl x
    have : cumsum (fun x : K => x) x = npCumsum x := by cases x <;> simp only [cumsum, npCumsum, add_id]
    unfold cumsum0 Verif.cumsum0
    rw [this]
  unfold calcDiagonal Eucl.calcDiagonal
  rw [h, sub_id, square_id, fl_id]

/-- Without rounding, this is the model of `calc_column` in `Model/Euclidean.lean`. -/
theorem calcColumn_id (mem : Nat → List (Fl K)) (sq : K → K) (g : ColCache K) (c : Int) :
    calcColumn (fun x => x) Dots.exact mem sq g c = Eucl.calcColumn mem sq g c := by
  have h1 : sqDist (fun x : K => x) Dots.exact = Eucl.sqDist := by
    funext s x
    unfold sqDist Eucl.sqDist
    have hm : mul (fun x : K => x) = Fl.mul := by funext a b; unfold mul; rw [fl_id]
    rw [add_id, sub_id, hm]; rfl
  have h2 : term (fun x : K => x) = Eucl.term := by funext a b; unfold term; rw [square_id, sub_id]; rfl
  have h3 : column (fun x : K => x) mem = ColCache.column mem := by
    funext f t g c
    unfold column ColCache.column
    rw [sub_id, add_id]
  unfold calcColumn Eucl.calcColumn
  rw [h1, h2, h3, fl_id]

end Rounded

namespace RoundedZ
variable {K : Type} [Field K] [LinearOrder K]

theorem mul_id [IsStrictOrderedRing K] : Rounded.mul (fun x : K => x) = Fl.mul := by funext a b; unfold Rounded.mul; rw [Rounded.fl_id]

theorem column_id (mem : Nat → List (Fl K)) : Rounded.column (fun x : K => x) mem = ColCache.column mem := by
  funext f t g c
  unfold Rounded.column ColCache.column
  rw [Rounded.sub_id, Rounded.add_id]

theorem qs_exact (z : Gen ℝ) : z.exact.qs = ⟨z.qs.mu, z.qs.std, z.qs.nz⟩ := by
  unfold ZN.qs Gen.qs Gen.exact
  cases z.qStats <;> rfl

theorem noiseTerm_id (m noise stds stdq : ℝ) : noiseTerm (fun x => x) m noise stds stdq =
    Fl.div (.fin (2 * (m + 1) * noise ^ 2)) (.fin (max stds stdq ^ 2)) := by
  unfold noiseTerm div
  rw [mul_id, Rounded.square_id, Rounded.fl_id]
  simp [Fl.square, Fl.mul, sq]

theorem formula_id (m : ℝ) (dot : Fl ℝ) (muq stdq mus stds : ℝ) : formula (fun x => x) m dot muq stdq mus stds =
    Fl.mul (.fin 2) (Fl.sub (.fin m) (Fl.div (Fl.sub dot (.fin (m * muq * mus))) (.fin (stdq * stds)))) := by
  unfold formula div
  rw [mul_id, Rounded.sub_id, Rounded.fl_id]
  rfl

/-- Without rounding, this is the model of `calc_column` in `Model/ZNormEuclidean.lean`. -/
theorem calcColumn_id (mem : Nat → List (Fl ℝ)) (z : Gen ℝ) (c : Int) :
    (calcColumn (fun x => x) ZN.dots mem Real.sqrt z c).map (fun r => (r.1.exact, r.2)) = ZN.calcColumn mem z.exact c := by
  have h : colEntry (fun x : ℝ => x) = ZN.colEntry := by
    funext m noise nzs mus stds dot muq stdq nzq
    unfold colEntry ZN.colEntry
    rw [noiseTerm_id, formula_id, Rounded.sub_id]; rfl
  have hz : @zipEntries ℝ (Fl ℝ) = @ZN.zipEntries (Fl ℝ) := rfl
  unfold calcColumn ZN.calcColumn
  rw [mul_id, column_id, h, hz, Rounded.fl_id, qs_exact]
  simp only [Gen.exact, bind, Except.bind, pure, Except.pure]
  repeat' (split <;> try rfl)
  all_goals simp_all [Except.map]

/-- Without rounding, this is the model of `calc_diagonal` in `Model/ZNormEuclidean.lean`. -/
theorem calcDiagonal_id (z : Gen ℝ) (d : Int) : calcDiagonal (fun x => x) Real.sqrt z d = ZN.calcDiagonal z.exact d := by
  have h : diagEntry (fun x : ℝ => x) = ZN.diagEntry := by
    funext m noise dot muq stdq nzq mus stds nzs
    unfold diagEntry ZN.diagEntry
    rw [noiseTerm_id, formula_id, Rounded.sub_id]; rfl
  have hc : Rounded.cumsum0 (fun x : ℝ => x) = Verif.cumsum0 := by
    funext dl x
    have : Rounded.cumsum (fun x : ℝ => x) x = npCumsum x := by cases x <;> simp only [Rounded.cumsum, npCumsum, Rounded.add_id]
    unfold Rounded.cumsum0 Verif.cumsum0
    rw [this]
  unfold calcDiagonal ZN.calcDiagonal
  rw [mul_id, hc, h, Rounded.sub_id, Rounded.fl_id, qs_exact]
  rfl

end RoundedZ
end Verif
