import Verif.Props.FloatStream
import Verif.Props.FloatNumbers

/-!
# C89: streaming calculations in `float64`
-/

namespace Verif
open Spec
variable {α : Type}

/-- All points in the streams were appended. -/
theorem MSt.points {p : α → Prop} (m N : Nat) (M : Option Nat) (us : List (MOp α)) (h : ∀ op ∈ us, ∀ v, op = .series v ∨ op = .query v → ∀ x ∈ v, p x) :
    ∀ u : MSt α, (∀ x ∈ u.s ++ u.q, p x) → u.All m N M (fun u _ => ∀ x ∈ u.s ++ u.q, p x) us := by
  induction us with
  | nil => intro u _; trivial
  | cons op us ih =>
    intro u hu
    refine ⟨hu, ih (fun op hop => h op (by simp [hop])) _ fun x hx => ?_⟩
    have h1 := h op (by simp)
    rw [List.mem_append] at hx
    cases op with
    | series v =>
      simp only [MSt.step, List.mem_append] at hx
      rcases hx with (hx | hx) | hx
      · exact hu x (List.mem_append_left _ hx)
      · exact h1 v (.inl rfl) x hx
      · split at hx
        · rcases List.mem_append.mp hx with hx | hx
          · exact hu x (List.mem_append_right _ hx)
          · exact h1 v (.inl rfl) x hx
        · exact hu x (List.mem_append_right _ hx)
    | query v =>
      simp only [MSt.step, List.mem_append] at hx
      rcases hx with hx | hx | hx
      · exact hu x (List.mem_append_left _ hx)
      · exact hu x (List.mem_append_right _ hx)
      · exact h1 v (.inr rfl) x hx
    | columns k => exact hu x (List.mem_append.mpr hx)

theorem MSt.all_imp {m N : Nat} {M : Option Nat} {p q : MSt α → MOp α → Prop} (h : ∀ u op, p u op → q u op) : ∀ {us : List (MOp α)} {u : MSt α},
    u.All m N M p us → u.All m N M q us
  | [], _, _ => trivial
  | _ :: _, _, H => ⟨h _ _ H.1, MSt.all_imp h H.2⟩

theorem MSt.all_and {m N : Nat} {M : Option Nat} {p q : MSt α → MOp α → Prop} : ∀ {us : List (MOp α)} {u : MSt α},
    u.All m N M p us → u.All m N M q us → u.All m N M (fun u op => p u op ∧ q u op) us
  | [], _, _, _ => trivial
  | _ :: _, _, H, H' => ⟨⟨H.1, H'.1⟩, MSt.all_and H.2 H'.2⟩

/-- Calculations in `float64` with subsequences of length 100, query windows of at most 10000 points (series windows and streams of any length), points of at
most 10 in absolute value, numbers that are floats for Euclidean generators; no noise elimination, and whenever columns are calculated every
subsequence in the windows has a deviation of at least 1 or at most 1e-7 for z-normalised generators, and no two subsequences in the windows outside the
trivial match band have a Euclidean distance below 1/1000. -/
structure StreamCase.Float64 (S : StreamCase α) (F : FloatEnv) (idss : List (List Nat)) : Prop extends S.Any idss where
  rnd : F.rnd = b64
  dots : F.dots.Ok b64
  stat : F.stat.Direct b64
  conv : RoundedZ.ConvDirect b64 F.conv
  length : S.m = 100
  points : S.M.getD S.N ≤ 10000
  data : ∀ k ∈ S.kinds, ∀ op ∈ S.us, ∀ v, op = .series v ∨ op = .query v → ∀ x ∈ v, |S.π k.2 x| ≤ 10
  floats : ∀ k ∈ S.kinds, ∀ scale, k.1 = .euclidean scale → ∀ op ∈ S.us, ∀ v, op = .series v ∨ op = .query v → ∀ x ∈ v, b64 (S.π k.2 x) = S.π k.2 x
  noise : ∀ k ∈ S.kinds, ∀ e scale, k.1 = .znorm e scale → e = 0
  clear : MSt.init.All S.m S.N S.M (fun u op => ∀ n, op = .columns n → ∀ k ∈ S.kinds, ∀ e scale, k.1 = .znorm e scale →
    (∀ j, j + 100 ≤ (lastN S.N (u.s.map (S.π k.2))).length → RoundedZ.Clear 1 (1 / 10 ^ 7) (std 100 (seqOf (lastN S.N (u.s.map (S.π k.2)))) j)) ∧
    ∀ i, i + 100 ≤ (lastN (S.M.getD S.N) (u.q.map (S.π k.2))).length →
      RoundedZ.Clear 1 (1 / 10 ^ 7) (std 100 (seqOf (lastN (S.M.getD S.N) (u.q.map (S.π k.2)))) i)) S.us
  far : MSt.init.All S.m S.N S.M (fun u op => ∀ n, op = .columns n → ∀ id k scale, S.kinds[id]? = some k → k.1 = .euclidean scale → ∀ r c,
    r + S.m ≤ (lastN (S.M.getD S.N) u.q).length → c + S.m ≤ (lastN S.N u.s).length → ¬ ((r : Int) - c ≤ S.b ∧ (c : Int) - r ≤ S.b) →
    1 / 1000 ≤ streamValue S.π S.m S.kinds id (((lastN S.N u.s).drop c).take S.m) (((lastN (S.M.getD S.N) u.q).drop r).take S.m)) S.us

theorem mem_lastN_map {f : α → ℝ} {n : Nat} {l : List α} {x : ℝ} (h : x ∈ lastN n (l.map f)) : ∃ y ∈ l, f y = x :=
  List.mem_map.mp (List.mem_of_mem_drop (by simpa [lastN] using h))

theorem StreamCase.Float64.ok {S : StreamCase α} {F : FloatEnv} {idss : List (List Nat)} (h : S.Float64 F idss) : S.FloatOk F float64Bounds idss where
  toAny := h.toAny
  env := by rw [h.length]; exact float64_good h.rnd h.dots h.stat h.conv
  data := by
    have hp := MSt.points (p := fun x => ∀ k ∈ S.kinds, |S.π k.2 x| ≤ 10 ∧ ∀ scale, k.1 = .euclidean scale → b64 (S.π k.2 x) = S.π k.2 x)
      S.m S.N S.M S.us (fun op hop v hv x hx k hk => ⟨h.data k hk op hop v hv x hx, fun scale e => h.floats k hk scale e op hop v hv x hx⟩) MSt.init
      (by simp [MSt.init])
    refine MSt.all_imp ?_ (MSt.all_and hp h.clear)
    rintro u op ⟨hu, hcl⟩ n rfl k hk
    have hs : ∀ x ∈ lastN S.N (u.s.map (S.π k.2)), |x| ≤ 10 ∧ ∀ scale, k.1 = .euclidean scale → b64 x = x := by
      intro x hx
      obtain ⟨y, hy, rfl⟩ := mem_lastN_map hx
      exact hu y (List.mem_append_left _ hy) k hk
    have hq : ∀ x ∈ lastN (S.M.getD S.N) (u.q.map (S.π k.2)), |x| ≤ 10 ∧ ∀ scale, k.1 = .euclidean scale → b64 x = x := by
      intro x hx
      obtain ⟨y, hy, rfl⟩ := mem_lastN_map hx
      exact hu y (List.mem_append_right _ hy) k hk
    have hcl := hcl n rfl k hk
    unfold GenKind.FloatData
    cases hk' : k.1 with
    | euclidean scale =>
      refine ⟨fun x hx => ⟨?_, (hs x hx).1⟩, fun x hx => ⟨?_, (hq x hx).1⟩⟩
      · rw [h.rnd]; exact (hs x hx).2 scale hk'
      · rw [h.rnd]; exact (hq x hx).2 scale hk'
    | znorm e scale =>
      obtain ⟨c1, c2⟩ := hcl e scale hk'
      rw [h.length]
      exact ⟨fun x hx => (hs x hx).1, fun x hx => (hq x hx).1, c1, c2⟩
  far := by
    refine MSt.all_imp ?_ h.far
    rintro u op hu n rfl id hid r c hr hc hb
    have hk := List.getElem?_eq_getElem hid
    unfold StreamCase.nanBelow
    rw [hk]
    simp only
    cases hk' : (S.kinds[id]).1 with
    | euclidean scale =>
      have := hu n rfl id _ scale hk hk' r c hr hc hb
      show columnErr ((2 : ℝ) ^ (-53 : ℤ)) (2 ^ (-1075 : ℤ)) (F.rnd (1 / 10 ^ 15)) S.m 10 (S.M.getD S.N) ≤ _
      refine le_trans ?_ (pow_le_pow_left₀ (by norm_num) this 2)
      rw [h.length, h.rnd]
      exact (columnErr_10000 h.points).trans (by norm_num)
    | znorm e scale => exact sq_nonneg _

/-- The error in these calculations. -/
theorem StreamCase.Float64.err {S : StreamCase α} {F : FloatEnv} {idss : List (List Nat)} (h : S.Float64 F idss) (id : Nat) :
    S.floatErr F float64Bounds id ≤ 1 / 200 := by
  unfold StreamCase.floatErr
  cases hk : S.kinds[id]? with
  | none => norm_num
  | some k =>
    have hm := List.mem_of_getElem? hk
    simp only
    rw [h.length]
    cases hk' : k.1 with
    | euclidean scale =>
      show rootErr ((2 : ℝ) ^ (-53 : ℤ)) (2 ^ (-1075 : ℤ)) (euclidSqErr _ _ (F.rnd (1 / 10 ^ 15)) 100 10 (S.M.getD S.N)) (2 * √((100 : Nat) : ℝ) * 10) ≤ 1 / 200
      rw [h.rnd, sqrt_100]
      exact rootErr_200 (euclidErr_10000 h.points) (by norm_num) (by norm_num)
    | znorm e scale =>
      obtain rfl := h.noise k hm e scale hk'
      show rootErr ((2 : ℝ) ^ (-53 : ℤ)) (2 ^ (-1075 : ℤ)) (znormSqErr _ _ (F.rnd (1 / 10 ^ 12)) 100 10 (1 / 10 ^ 12) (1 / 10 ^ 12) 1 0 (2 / 10 ^ 10)
        (S.M.getD S.N)) (2 * √((100 : Nat) : ℝ)) ≤ 1 / 200
      rw [h.rnd, sqrt_100]
      exact rootErr_200 (znormErr_10000 h.points) (by norm_num) (by norm_num)

theorem Spec.NearestWithin.mono {ε ε' : ℝ} (h : ε ≤ ε') {P : Nat → Prop} {f : Nat → Fl ℝ} {v : Fl ℝ} {i : Int} (hd : NearestWithin ε P f v i) :
    NearestWithin ε' P f v i := by
  rcases hd with hd | ⟨r, h1, h2, x, y, h3, h4, h5, h6⟩
  · exact .inl hd
  · exact .inr ⟨r, h1, h2, x, y, h3, h4, h5.trans h, fun r' x' h7 h8 => (h6 r' x' h7 h8).trans (by linarith)⟩

/-- **C89, in numbers.** `ShiftingMatrixProfileLR` consumers of a stream of any length in `float64`: every entry of a profile is within 1/200 of the distance to
the subsequence named by the index, and no calculated pair is closer by more than 1/200. -/
theorem C89_float64 (S : StreamCase α) (F : FloatEnv) (memF : Nat → List (Fl ℝ)) (memI : Nat → List Int) (hF : ∀ n, (memF n).length = n)
    (hI : ∀ n, (memI n).length = n) (scale : ℚ) (h1 : 1 ≤ scale) (h2 : scale ≤ 2) (cs : List (ShiftingMP ℝ × Nat))
    (hfresh : ∀ c ∈ cs, c.1.seriesShift = 0 ∧ c.1.queryShift = 0) (hS : S.Float64 F (cs.map fun c => [c.2])) :
    ∃ cons', S.floatResult F (ShiftingMP.ops memF memI scale) (cs.map fun c => (c.1, [c.2])) = .ok cons' ∧
      List.Forall₂ (fun c p => p.2 = [c.2] ∧ ShowsProfileWithin (1 / 200) (streamDist S.π S.m S.kinds c.2) S.m S.N S.b S.last p.1) cs cons' := by
  obtain ⟨cons', e1, e2⟩ := C89_profile S F float64Bounds memF memI hF hI scale h1 h2 cs hfresh hS.ok
  refine ⟨cons', e1, e2.imp fun c p h => ⟨h.1, h.2.len, fun j hj => ?_, fun j hj => ?_, fun j hj => ?_⟩⟩
  · obtain ⟨v, i, f1, f2, f3⟩ := h.2.left j hj
    exact ⟨v, i, f1, f2, f3.mono (hS.err _)⟩
  · obtain ⟨v, i, f1, f2, f3⟩ := h.2.right j hj
    exact ⟨v, i, f1, f2, f3.mono (hS.err _)⟩
  · obtain ⟨v, i, f1, f2, f3⟩ := h.2.merged j hj
    exact ⟨v, i, f1, f2, f3.mono (hS.err _)⟩

/-! ### A concrete case -/

/-- A window of 101 points that alternate between 2 and -2; all columns; two more points, which replace the oldest ones; all columns. -/
noncomputable def exFloatStream : StreamCase ℤ where
  memE := fun n => List.replicate n .nan
  memZ := ZN.zeroMem
  π := fun _ x => (x : ℝ)
  m := 100
  N := 101
  M := none
  nDim := 1
  buffer := some 0
  kinds := [(.euclidean 2, 0), (.znorm 0 2, 0)]
  needed := [1, 0]
  us := [.series exFloat.s, .columns 2, .series [-2, 2], .columns 2]
  os := [.series (.d2 [exFloat.s.map fun x => .fin (x : ℝ)] 101), .columns (fun _ => false) (.int 2), .series (.d2 [[.fin (-2), .fin 2]] 2),
    .columns (fun _ => false) (.float (.fin 1))]

theorem exFloatStream_windows : MSt.init.All 100 101 none (fun u op => ∀ n, op = .columns n → lastN 101 u.s = exFloat.s ∧ lastN 101 u.q = exFloat.s) exFloatStream.us := by
  refine ⟨by simp, ?_, by simp, ?_, trivial⟩
  · intro n _; exact ⟨rfl, rfl⟩
  · intro n _; exact ⟨rfl, rfl⟩

theorem exFloatStream_points (op : MOp ℤ) (hop : op ∈ exFloatStream.us) (v : List ℤ) (hv : op = .series v ∨ op = .query v) (x : ℤ) (hx : x ∈ v) : x = 2 ∨ x = -2 := by
  simp only [exFloatStream, List.mem_cons, List.not_mem_nil, or_false] at hop
  rcases hop with rfl | rfl | rfl | rfl
  · obtain rfl : exFloat.s = v := by simpa using hv
    exact exFloat_points x (List.mem_append_left _ hx)
  · simp at hv
  · obtain rfl : [-2, 2] = v := by simpa using hv
    simpa [or_comm] using hx
  · simp at hv

theorem exFloatStream_ok {idss : List (List Nat)} (h : ∀ ids ∈ idss, ∀ id ∈ ids, id = 0 ∨ id = 1) (h0 : ∃ ids ∈ idss, 0 ∈ ids) (h1 : ∃ ids ∈ idss, 1 ∈ ids) :
    exFloatStream.Float64 exEnv idss where
  memE := fun n => List.length_replicate
  memZ := ZN.zeroMem_ok
  args := by
    refine ⟨by decide, by decide, by simp [exFloatStream], by simp [exFloatStream], ?_, by simp [exFloatStream], ?_, by decide, ?_⟩
    · simp [exFloatStream, GenKind.ScaleOk]
    · intro ids h3 id h4
      rcases h ids h3 id h4 with rfl | rfl <;> simp [exFloatStream]
    · intro id
      constructor
      · intro h3
        have : id = 1 ∨ id = 0 := by simpa [exFloatStream] using h3
        rcases this with rfl | rfl
        · exact h1
        · exact h0
      · rintro ⟨ids, h3, h4⟩
        rcases h ids h3 id h4 with rfl | rfl <;> simp [exFloatStream]
  calls := by
    refine ⟨.inl ?_, ⟨2, .inl rfl, by simp, .inl rfl⟩, .inl ?_, ⟨2, .inr ⟨1, rfl, by norm_num, by norm_num, by norm_num [exFloatStream]⟩, by simp, .inl rfl⟩, trivial⟩
    · show NDArray.d2 [exFloat.s.map fun x => Fl.fin (x : ℝ)] 101 = .d2 [exFloat.s.map fun x => Fl.fin (x : ℝ)] exFloat.s.length
      rfl
    · simp [exFloatStream]
  valid := by
    refine ⟨?_, ?_, ?_, ?_, trivial⟩ <;> simp [MSt.Valid, MSt.step, MSt.init, exFloatStream]
  rnd := rfl
  dots := Rounded.left_ok _
  stat := RoundedZ.Stat.left_direct b64
  conv := RoundedZ.convLeft_direct b64
  length := rfl
  points := by simp [exFloatStream]
  data := by
    intro k hk op hop v hv x hx
    rcases exFloatStream_points op hop v hv x hx with rfl | rfl <;> simp [exFloatStream] <;> norm_num
  floats := by
    intro k hk scale _ op hop v hv x hx
    refine Rounded.b64_digits 0 (by norm_num) _ ⟨x, by simp [exFloatStream]⟩ ?_
    rcases exFloatStream_points op hop v hv x hx with rfl | rfl <;> simp [exFloatStream] <;> norm_num
  noise := by
    intro k hk e scale h
    simp only [exFloatStream, List.mem_cons, List.not_mem_nil, or_false] at hk
    rcases hk with rfl | rfl
    · cases h
    · cases h; rfl
  clear := by
    refine MSt.all_imp ?_ exFloatStream_windows
    intro u op hu n hn k hk e scale _
    obtain ⟨hs, hq⟩ := hu n hn
    have hz : exFloat.s.map (fun x : ℤ => (x : ℝ)) = zigzag := by
      simp only [exFloat, zigzag, List.map_map]
      refine List.map_congr_left fun j _ => ?_
      simp only [Function.comp]
      split <;> simp
    have hl : zigzag.length = 101 := by simp [zigzag]
    have h1 : lastN 101 (u.s.map fun x : ℤ => (x : ℝ)) = zigzag := by rw [lastN_map, hs, hz]
    have h2 : lastN 101 (u.q.map fun x : ℤ => (x : ℝ)) = zigzag := by rw [lastN_map, hq, hz]
    show (∀ j, j + 100 ≤ (lastN 101 (u.s.map fun x : ℤ => (x : ℝ))).length → RoundedZ.Clear 1 (1 / 10 ^ 7) (std 100 (seqOf (lastN 101 (u.s.map fun x : ℤ => (x : ℝ)))) j)) ∧
      ∀ i, i + 100 ≤ (lastN 101 (u.q.map fun x : ℤ => (x : ℝ))).length → RoundedZ.Clear 1 (1 / 10 ^ 7) (std 100 (seqOf (lastN 101 (u.q.map fun x : ℤ => (x : ℝ)))) i)
    rw [h1, h2, hl]
    refine ⟨fun j hj => .inl ?_, fun j hj => .inl ?_⟩ <;> rw [zigzag_std j (by omega)] <;> norm_num
  far := by
    refine MSt.all_imp ?_ exFloatStream_windows
    intro u op hu n hn id k scale hk hk' r c hr hc hb
    have hid : id = 0 := by
      match id, hk with
      | 0, _ => rfl
      | 1, hk => cases hk; cases hk'
    subst hid
    obtain ⟨hs, hq⟩ := hu n hn
    change r + 100 ≤ (lastN 101 u.q).length at hr
    change c + 100 ≤ (lastN 101 u.s).length at hc
    show 1 / 1000 ≤ streamValue exFloatStream.π 100 exFloatStream.kinds 0 (((lastN 101 u.s).drop c).take 100) (((lastN 101 u.q).drop r).take 100)
    rw [hq] at hr
    rw [hs] at hc
    rw [hs, hq]
    have hl : exFloat.s.length = 101 := rfl
    rw [hl] at hr hc
    exact le_trans (by norm_num) (exFloat_value r (by show r < 2; omega) c (by show c < 2; omega) hb)

/-- A consumer that has not been used. -/
noncomputable def freshProfile : ShiftingMP ℝ :=
  let f : RB (Fl ℝ) := ⟨[], [.fin 9], 1, 0, 1, .window 0 1⟩
  let i : RB Int := ⟨[], [5], 1, 0, 1, .window 0 1⟩
  ⟨i, ⟨f, i⟩, ⟨f, i⟩, 0, 0⟩

/-- C89 applies to this stream. -/
example : ∃ cons', exFloatStream.floatResult exEnv (ShiftingMP.ops (fun n => List.replicate n .nan) (fun n => List.replicate n 0) 2)
      [(freshProfile, [1]), (freshProfile, [0])] = .ok cons' ∧
    List.Forall₂ (fun c p => p.2 = [c.2] ∧ ShowsProfileWithin (1 / 200) (streamDist exFloatStream.π 100 exFloatStream.kinds c.2) 100 101 0 exFloatStream.last p.1)
      [(freshProfile, 1), (freshProfile, 0)] cons' :=
  C89_float64 exFloatStream exEnv _ _ (by simp) (by simp) 2 (by norm_num) (by norm_num) [(freshProfile, 1), (freshProfile, 0)] (by simp [freshProfile])
    (exFloatStream_ok (by simp) (by simp) (by simp))

example : ∃ cons', exFloatStream.floatResult exEnv DM.ops [(DM.new, [1]), (DM.new, [0])] = .ok cons' ∧
    List.Forall₂ (fun id c => c.2 = [id] ∧ exFloatStream.ShowsWithin (exFloatStream.floatErr exEnv float64Bounds id) id c.1) [1, 0] cons' :=
  C89_matrix exFloatStream exEnv float64Bounds [1, 0] (exFloatStream_ok (by simp) (by simp) (by simp)).ok

example : ∃ cons', exFloatStream.floatResult exEnv recorder [([], [1, 0])] = .ok cons' ∧
    List.Forall₂ (fun ids c => c.2 = ids ∧ List.Forall₂ (NearEvent (fun id => CloseVal (exFloatStream.floatErr exEnv float64Bounds id)) ids)
      (exFloatStream.events ids) c.1) [[1, 0]] cons' :=
  C89_calls exFloatStream exEnv float64Bounds [[1, 0]] (exFloatStream_ok (by simp) (by simp) (by simp)).ok

end Verif
