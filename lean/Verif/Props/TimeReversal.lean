import Verif.Props.Consensus
import Verif.Props.EndToEnd
import Verif.Props.MotifLengths

/-!
# C110 and C122: series that run backwards
-/

namespace Verif
open Spec Finset
namespace TimeReversal

/-! ### Distances -/

theorem seqOf_reverse {K : Type} [Zero K] (l : List K) (m i : Nat) (hi : i + m ≤ l.length) : ∀ k < m, seqOf l.reverse (i + k) = seqOf l (l.length - m - i + (m - 1 - k)) := by
  intro k hk
  unfold seqOf
  rw [List.getD_eq_getElem?_getD, List.getD_eq_getElem?_getD, List.getElem?_reverse (by omega)]
  congr 2
  omega

theorem sqd_reverse {K : Type} [Field K] (m : Nat) (s q : List K) (r c : Nat) (hr : r + m ≤ q.length) (hc : c + m ≤ s.length) :
    sqd m (seqOf s.reverse) (seqOf q.reverse) r c = sqd m (seqOf s) (seqOf q) (q.length - m - r) (s.length - m - c) := by
  unfold sqd
  rw [← sum_range_reflect (fun k => (seqOf s (s.length - m - c + k) - seqOf q (q.length - m - r + k)) ^ 2)]
  refine sum_congr rfl fun k hk => ?_
  rw [seqOf_reverse s m c hc k (mem_range.mp hk), seqOf_reverse q m r hr k (mem_range.mp hk)]

theorem mean_reverse (m : Nat) (s : List ℝ) (c : Nat) (hc : c + m ≤ s.length) : mean m (seqOf s.reverse) c = mean m (seqOf s) (s.length - m - c) := by
  unfold mean
  rw [← sum_range_reflect (fun k => seqOf s (s.length - m - c + k))]
  congr 1
  exact sum_congr rfl fun k hk => seqOf_reverse s m c hc k (mem_range.mp hk)

theorem std_reverse (m : Nat) (s : List ℝ) (c : Nat) (hc : c + m ≤ s.length) : std m (seqOf s.reverse) c = std m (seqOf s) (s.length - m - c) := by
  unfold std var
  rw [← sum_range_reflect (fun k => (seqOf s (s.length - m - c + k) - mean m (seqOf s) (s.length - m - c)) ^ 2), mean_reverse m s c hc]
  congr 2
  exact sum_congr rfl fun k hk => by rw [seqOf_reverse s m c hc k (mem_range.mp hk)]

theorem zdist_reverse (m : Nat) (noise : ℝ) (s q : List ℝ) (r c : Nat) (hr : r + m ≤ q.length) (hc : c + m ≤ s.length) :
    zdist m noise (seqOf s.reverse) (seqOf q.reverse) r c = zdist m noise (seqOf s) (seqOf q) (q.length - m - r) (s.length - m - c) := by
  have e : zsq m (seqOf s.reverse) (seqOf q.reverse) r c = zsq m (seqOf s) (seqOf q) (q.length - m - r) (s.length - m - c) := by
    unfold zsq
    rw [mean_reverse m s c hc, mean_reverse m q r hr, std_reverse m s c hc, std_reverse m q r hr,
      ← sum_range_reflect (fun k => ((seqOf s (s.length - m - c + k) - mean m (seqOf s) (s.length - m - c)) / std m (seqOf s) (s.length - m - c) -
        (seqOf q (q.length - m - r + k) - mean m (seqOf q) (q.length - m - r)) / std m (seqOf q) (q.length - m - r)) ^ 2)]
    exact sum_congr rfl fun k hk => by rw [seqOf_reverse s m c hc k (mem_range.mp hk), seqOf_reverse q m r hr k (mem_range.mp hk)]
  unfold zdist znoise zflat Flat
  rw [e, std_reverse m s c hc, std_reverse m q r hr]

/-! ### Profiles -/

theorem nearest_reverse {K : Type} [LinearOrder K] {d d' : Nat → K} {h : Nat} {rows rows' : Nat → Prop} {v v' : Fl K} {i i' : Int} (hd : ∀ r < h, rows r → d' (h - 1 - r) = d r)
    (hr : ∀ r < h, (rows' (h - 1 - r) ↔ rows r)) (hv : IsNearest d h rows v i) (hv' : IsNearest d' h rows' v' i') : v = v' := by
  have back : ∀ r < h, h - 1 - (h - 1 - r) = r := fun r hr => by omega
  rcases hv with ⟨rfl, g⟩ | ⟨r, r1, r2, rfl, -, r5⟩ <;> rcases hv' with ⟨rfl, g'⟩ | ⟨s, s1, s2, rfl, -, s5⟩
  · rfl
  · have := (hr (h - 1 - s) (by omega)).mp (by rwa [back s s1])
    exact absurd this (g _ (by omega))
  · exact absurd ((hr r r1).mpr r2) (g' _ (by omega))
  · have hs := (hr (h - 1 - s) (by omega)).mp (by rwa [back s s1])
    have e := hd (h - 1 - s) (by omega) hs
    rw [back s s1] at e
    congr 1
    refine le_antisymm ?_ ?_
    · rw [e]; exact r5 _ (by omega) hs
    · rw [← hd r r1 r2]; exact s5 _ (by omega) ((hr r r1).mpr r2)

variable {K : Type} [LinearOrder K] {d d' : Nat → Nat → K} {h w : Nat} {far far' : Nat → Nat → Prop} {p p' : MP K}

omit [LinearOrder K] in
theorem ext_reverse {l l' : List (Fl K)} (h1 : l.length = w) (h2 : l'.length = w) (h : ∀ c < w, ∀ u v, l[c]? = some u → l'[w - 1 - c]? = some v → u = v) : l' = l.reverse := by
  refine List.ext_getElem? fun c => ?_
  by_cases hc : c < w
  · rw [List.getElem?_reverse (by omega), h1]
    have := h (w - 1 - c) (by omega) _ _ (List.getElem?_eq_getElem (by omega)) (List.getElem?_eq_getElem (by omega))
    rw [List.getElem?_eq_getElem (by omega), List.getElem?_eq_getElem (l := l) (by omega), this]
    congr 2
    omega
  · rw [List.getElem?_eq_none (by omega), List.getElem?_eq_none (by rw [List.length_reverse]; omega)]

theorem merged_reverse (hp : IsProfile d h w far p) (hp' : IsProfile d' h w far' p') (hd : ∀ r < h, ∀ c < w, d' (h - 1 - r) (w - 1 - c) = d r c)
    (hf : ∀ r < h, ∀ c < w, (far' (h - 1 - r) (w - 1 - c) ↔ far r c)) : MP.merged p'.left p'.right = (MP.merged p.left p.right).reverse := by
  have len : ∀ {d : Nat → Nat → K} {far : Nat → Nat → Prop} {p : MP K}, IsProfile d h w far p → (MP.merged p.left p.right).length = w := by
    intro d far p hp
    unfold MP.merged
    rw [List.length_zipWith, hp.lengths.1, hp.lengths.2, min_self]
  refine ext_reverse (len hp) (len hp') fun c hc u v hu hv => ?_
  obtain ⟨_, _, _, _, _, _, -, -, h3, -, -, -, -, -, h9⟩ := hp.entries c hc
  obtain ⟨_, _, _, _, _, _, -, -, g3, -, -, -, -, -, g9⟩ := hp'.entries (w - 1 - c) (by omega)
  rw [hu] at h3
  rw [hv] at g3
  cases h3
  cases g3
  exact nearest_reverse (fun r hr _ => hd r hr c hc) (fun r hr => hf r hr c hc) h9 g9

theorem sides_reverse (hp : IsProfile d w w far p) (hp' : IsProfile d' w w far' p') (hd : ∀ r < w, ∀ c < w, d' (w - 1 - r) (w - 1 - c) = d r c)
    (hf : ∀ r < w, ∀ c < w, (far' (w - 1 - r) (w - 1 - c) ↔ far r c)) (hdiag : ∀ c, ¬ far c c) : p'.left = p.right.reverse ∧ p'.right = p.left.reverse := by
  have ne : ∀ r c, far r c → r ≠ c := by rintro r c h rfl; exact hdiag r h
  refine ⟨ext_reverse hp.lengths.2 hp'.lengths.1 fun c hc u v hu hv => ?_, ext_reverse hp.lengths.1 hp'.lengths.2 fun c hc u v hu hv => ?_⟩
  · obtain ⟨_, _, _, _, _, _, -, h2, -, -, -, -, -, h8, -⟩ := hp.entries c hc
    obtain ⟨_, _, _, _, _, _, g1, -, -, -, -, -, g7, -, -⟩ := hp'.entries (w - 1 - c) (by omega)
    rw [hu] at h2
    rw [hv] at g1
    cases h2
    cases g1
    refine nearest_reverse (fun r hr _ => hd r hr c hc) (fun r hr => ?_) h8 g7
    rw [hf r hr c hc]
    refine and_congr_right fun hfar => ?_
    have := ne r c hfar
    omega
  · obtain ⟨_, _, _, _, _, _, h1, -, -, -, -, -, h7, -, -⟩ := hp.entries c hc
    obtain ⟨_, _, _, _, _, _, -, g2, -, -, -, -, -, g8, -⟩ := hp'.entries (w - 1 - c) (by omega)
    rw [hu] at h1
    rw [hv] at g2
    cases h1
    cases g2
    refine nearest_reverse (fun r hr _ => hd r hr c hc) (fun r hr => ?_) h7 g8
    rw [hf r hr c hc]
    refine and_congr_right fun hfar => ?_
    have := ne r c hfar
    omega

theorem apart_reverse {b : Int} {h r c : Nat} (hr : r < h) (hc : c < h) : Apart b (h - 1 - r) (h - 1 - c) ↔ Apart b r c := by
  unfold Apart
  rw [show (((h - 1 - r : Nat) : Int) - ((h - 1 - c : Nat) : Int)) = -((r : Int) - c) by omega, abs_neg]

omit [LinearOrder K] in
theorem far_reverse {q : Option (List K)} {s : List K} {b : Int} {m : Nat} : ∀ r < (q.getD s).length + 1 - m, ∀ c < s.length + 1 - m,
    ((q.map List.reverse = none → Apart b ((q.getD s).length + 1 - m - 1 - r) (s.length + 1 - m - 1 - c)) ↔ (q = none → Apart b r c)) := by
  intro r hr c hc
  cases q with
  | none => simpa using apart_reverse hr hc
  | some q => simp

omit [LinearOrder K] in
theorem getD_reverse (q : Option (List K)) (s : List K) : (q.map List.reverse).getD s.reverse = (q.getD s).reverse := by cases q <;> rfl

end TimeReversal

open TimeReversal

/-- **C110, by columns or by diagonals.** A calculator makes the z-normalised matrix profile of a series and a query, or of a series with itself, and again with both running backwards. Neither call
raises, and the second matrix profile is the first running backwards. In a self-join with a trivial match buffer that is not negative, the left matrix profile is the right one of the
other running backwards, and the other way round. -/
theorem C110_znorm (mem mem' : ZN.Mem) (hmem : mem.Ok) (hmem' : mem'.Ok) (noise : ℝ) (shuffle shuffle' : List Int → List Int) (hsh : ∀ l, (shuffle l).Perm l) (hsh' : ∀ l, (shuffle' l).Perm l)
    (byColumns byColumns' : Bool) (m : Nat) (hm0 : 0 < m) (s : List ℝ) (q : Option (List ℝ)) (hm : m ≤ s.length) (hq : ∀ q', q = some q' → m ≤ q'.length) (buffer : Option Int)
    (hb : q = none → -1 ≤ buffer.getD (m / 2) ∧ buffer.getD (m / 2) < ((s.length + 1 - m : Nat) : Int)) :
    ∃ p p', matrixProfile (ZN.genOps mem) (ZN.prepare mem noise) shuffle byColumns m (s.map .fin) (q.map (·.map .fin)) buffer = .ok p ∧
      matrixProfile (ZN.genOps mem') (ZN.prepare mem' noise) shuffle' byColumns' m (s.reverse.map .fin) ((q.map List.reverse).map (·.map .fin)) buffer = .ok p' ∧
      MP.merged p'.left p'.right = (MP.merged p.left p.right).reverse ∧
      (q = none → 0 ≤ buffer.getD (m / 2) → p'.left = p.right.reverse ∧ p'.right = p.left.reverse) := by
  obtain ⟨p, p1, p2⟩ := C60_znorm mem hmem noise shuffle hsh byColumns m hm0 s q hm hq buffer hb
  obtain ⟨p', p1', p2'⟩ := C60_znorm mem' hmem' noise shuffle' hsh' byColumns' m hm0 s.reverse (q.map List.reverse) (by simpa using hm) (by
    intro q' h
    obtain ⟨x, hx, rfl⟩ := Option.map_eq_some_iff.mp h
    simpa using hq x hx) buffer (by simpa using hb)
  rw [getD_reverse, List.length_reverse, List.length_reverse] at p2'
  have hd : ∀ r < (q.getD s).length + 1 - m, ∀ c < s.length + 1 - m,
      zdist m noise (seqOf s.reverse) (seqOf (q.getD s).reverse) ((q.getD s).length + 1 - m - 1 - r) (s.length + 1 - m - 1 - c) = zdist m noise (seqOf s) (seqOf (q.getD s)) r c := by
    intro r hr c hc
    rw [zdist_reverse m noise s (q.getD s) _ _ (by omega) (by omega)]
    congr 1 <;> omega
  refine ⟨p, p', p1, p1', merged_reverse p2 p2' hd far_reverse, ?_⟩
  rintro rfl hb0
  refine sides_reverse p2 p2' hd far_reverse fun c h => ?_
  have := h rfl
  unfold Apart at this
  simp at this
  omega

/-- **C110, by columns or by diagonals.** The same for Euclidean distances, by diagonals. -/
theorem C110_euclidean {K : Type} [Field K] [LinearOrder K] [IsStrictOrderedRing K] (mem mem' : Nat → List (Fl K)) (hmem : ∀ n, (mem n).length = n) (hmem' : ∀ n, (mem' n).length = n) (sq : K → K)
    (shuffle shuffle' : List Int → List Int) (hsh : ∀ l, (shuffle l).Perm l) (hsh' : ∀ l, (shuffle' l).Perm l) (m : Nat) (hm0 : 0 < m) (s : List K) (q : Option (List K))
    (hm : m ≤ s.length) (hq : ∀ q', q = some q' → m ≤ q'.length) (buffer : Option Int)
    (hb : q = none → -1 ≤ buffer.getD (m / 2) ∧ buffer.getD (m / 2) < ((s.length + 1 - m : Nat) : Int)) :
    ∃ p p', matrixProfile (Eucl.genOps mem sq) (Eucl.prepare mem) shuffle false m (s.map .fin) (q.map (·.map .fin)) buffer = .ok p ∧
      matrixProfile (Eucl.genOps mem' sq) (Eucl.prepare mem') shuffle' false m (s.reverse.map .fin) ((q.map List.reverse).map (·.map .fin)) buffer = .ok p' ∧
      MP.merged p'.left p'.right = (MP.merged p.left p.right).reverse ∧
      (q = none → 0 ≤ buffer.getD (m / 2) → p'.left = p.right.reverse ∧ p'.right = p.left.reverse) := by
  obtain ⟨p, p1, p2⟩ := C60_euclidean_diagonals mem hmem sq shuffle hsh m hm0 s q hm hq buffer hb
  obtain ⟨p', p1', p2'⟩ := C60_euclidean_diagonals mem' hmem' sq shuffle' hsh' m hm0 s.reverse (q.map List.reverse) (by simpa using hm) (by
    intro q' h
    obtain ⟨x, hx, rfl⟩ := Option.map_eq_some_iff.mp h
    simpa using hq x hx) buffer (by simpa using hb)
  rw [getD_reverse, List.length_reverse, List.length_reverse] at p2'
  have hd : ∀ r < (q.getD s).length + 1 - m, ∀ c < s.length + 1 - m,
      sq (sqd m (seqOf s.reverse) (seqOf (q.getD s).reverse) ((q.getD s).length + 1 - m - 1 - r) (s.length + 1 - m - 1 - c)) = sq (sqd m (seqOf s) (seqOf (q.getD s)) r c) := by
    intro r hr c hc
    rw [sqd_reverse m s (q.getD s) _ _ (by omega) (by omega)]
    congr 2 <;> omega
  refine ⟨p, p', p1, p1', merged_reverse p2 p2' hd far_reverse, ?_⟩
  rintro rfl hb0
  refine sides_reverse p2 p2' hd far_reverse fun c h => ?_
  have := h rfl
  unfold Apart at this
  simp at this
  omega

/-! ### Consensus motifs -/

namespace TimeReversal

theorem get_reverse (series : List (List ℝ)) (i : Nat) : (series.map List.reverse)[i]? = series[i]?.map List.reverse := List.getElem?_map

theorem sub_reverse {m : Nat} {series : List (List ℝ)} {i a : Nat} {s : List ℝ} (hi : series[i]? = some s) (ha : a + m ≤ s.length) : IsSub m (series.map List.reverse) i (s.length - m - a) :=
  ⟨s.reverse, by rw [get_reverse, hi]; rfl, by rw [List.length_reverse]; omega⟩

theorem match_reverse {m : Nat} {series : List (List ℝ)} {i a : Nat} {s : List ℝ} (hi : series[i]? = some s) (ha : a + m ≤ s.length) (j : Nat) (x : ℝ) :
    IsMatch m (series.map List.reverse) i (s.length - m - a) j x ↔ IsMatch m series i a j x := by
  have key : ∀ q : List ℝ, {d | ∃ b, b + m ≤ q.reverse.length ∧ d = zdist m 0 (seqOf s.reverse) (seqOf q.reverse) b (s.length - m - a)} =
      {d | ∃ b, b + m ≤ q.length ∧ d = zdist m 0 (seqOf s) (seqOf q) b a} := by
    intro q
    ext d
    simp only [Set.mem_ofPred_eq, List.length_reverse]
    constructor
    · rintro ⟨b, hb, rfl⟩
      refine ⟨q.length - m - b, by omega, ?_⟩
      rw [zdist_reverse m 0 s q b _ hb (by omega)]
      congr 1
      omega
    · rintro ⟨b, hb, rfl⟩
      refine ⟨q.length - m - b, by omega, ?_⟩
      rw [zdist_reverse m 0 s q _ _ (by omega) (by omega)]
      congr 1 <;> omega
  unfold IsMatch
  rw [get_reverse, get_reverse, hi]
  constructor
  · rintro ⟨s', q', h1, h2, h3⟩
    obtain ⟨q, h4, rfl⟩ := Option.map_eq_some_iff.mp h2
    cases h1
    exact ⟨s, q, rfl, h4, by rw [← key q]; exact h3⟩
  · rintro ⟨s', q, h1, h2, h3⟩
    cases h1
    exact ⟨_, _, rfl, by rw [h2]; rfl, by rw [key q]; exact h3⟩

theorem radius_reverse {m : Nat} {series : List (List ℝ)} {i a : Nat} {s : List ℝ} (hi : series[i]? = some s) (ha : a + m ≤ s.length) (r : ℝ) :
    IsRadius m (series.map List.reverse) i (s.length - m - a) r ↔ IsRadius m series i a r := by
  unfold IsRadius
  simp only [match_reverse hi ha, List.length_map]

theorem reverse_reverse (series : List (List ℝ)) : (series.map List.reverse).map List.reverse = series := by
  simp [List.map_map]

end TimeReversal

open Ostinato

/-- **C122, consensus motifs.** `find_consensus_motif` reports the same radius if all series run backwards, and what it reports has, seen from the other end, the same radius in the other
collection. -/
theorem C122_consensus (mem mem' : ZN.Mem) (hmem : mem.Ok) (hmem' : mem'.Ok) (argsort argsort' : List (Fl ℝ) → List Nat) (hsort : ∀ l, IsArgsort l (argsort l))
    (hsort' : ∀ l, IsArgsort l (argsort' l)) (m : Nat) (hm : 3 ≤ m) (series : List (List ℝ)) (hn : 2 ≤ series.length) (hs : ∀ s ∈ series, m ≤ s.length) :
    ∃ (r : ℝ) (i a i' a' : Nat), findConsensusMotif mem argsort (series.map (·.map .fin)) m = .ok ⟨.fin r, i, a⟩ ∧
      findConsensusMotif mem' argsort' ((series.map List.reverse).map (·.map .fin)) m = .ok ⟨.fin r, i', a'⟩ ∧
      ∃ s, series[i']? = some s ∧ IsRadius m series i' (s.length - m - a') r := by
  obtain ⟨r, i, a, h1, ⟨s, hi, ha⟩, h3, h4⟩ := C55_optimum mem hmem argsort hsort m hm series hn hs
  obtain ⟨r', i', a', g1, ⟨s', hi', ha'⟩, g3, g4⟩ := C55_optimum mem' hmem' argsort' hsort' m hm (series.map List.reverse) (by simpa using hn) (by
    intro x hx
    obtain ⟨y, hy, rfl⟩ := List.mem_map.mp hx
    simpa using hs y hy)
  have k1 := g4 i (s.length - m - a) r (sub_reverse hi ha) ((radius_reverse hi ha r).mpr h3)
  have k3 := (radius_reverse hi' ha' r').mpr g3
  have k2 := sub_reverse hi' ha'
  rw [reverse_reverse] at k2 k3
  obtain rfl := le_antisymm (h4 i' _ r' k2 k3) k1
  rw [get_reverse] at hi'
  obtain ⟨t, ht, rfl⟩ := Option.map_eq_some_iff.mp hi'
  rw [List.length_reverse] at k3
  exact ⟨r, i, a, i', a', h1, g1, t, ht, k3⟩

/-! ### Motifs of variable length -/

open Valmod

/-- The pair of positions seen from the other end. -/
def otherEnd (n m : Nat) (a : Option (Nat × Nat)) : Option (Nat × Nat) := a.map fun z => (n - m - z.1, n - m - z.2)

theorem TimeReversal.motif_reverse {noise : ℝ} {x : List ℝ} {m b : Nat} {a : Option (Nat × Nat)} (h : IsMotif noise x.reverse m b a) : IsMotif noise x m b (otherEnd x.length m a) := by
  have far : ∀ q i, FarPair x.length m b q i → FarPair x.length m b (x.length - m - q) (x.length - m - i) := by
    rintro q i ⟨h1, h2, h3⟩
    exact ⟨by omega, by omega, by omega⟩
  have hz : ∀ q i, FarPair x.length m b q i →
      zdist m noise (seqOf x.reverse) (seqOf x.reverse) q i = zdist m noise (seqOf x) (seqOf x) (x.length - m - q) (x.length - m - i) :=
    fun q i h => zdist_reverse m noise x x q i h.1 h.2.1
  cases a with
  | none =>
    intro q i hf
    exact h q i (by rwa [List.length_reverse])
  | some z =>
    obtain ⟨q, i⟩ := z
    obtain ⟨h1, h2⟩ := h
    rw [List.length_reverse] at h1 h2
    refine ⟨far q i h1, fun q' i' h' => ?_⟩
    have := h2 _ _ (far q' i' h')
    rw [hz q i h1, hz _ _ (far q' i' h')] at this
    obtain ⟨k1, k2, -⟩ := h'
    rwa [show x.length - m - (x.length - m - q') = q' by omega, show x.length - m - (x.length - m - i') = i' by omega] at this

/-- **C122, variable length.** What a call of `find_variable_length_motifs` that returns has found in a series that runs backwards is, seen from the other end, a motif of the series, and is at
the distance at which a call with the series itself, if it returns, finds one. -/
theorem C122_lengths (mem mem' : ZN.Mem) (hmem : mem.Ok) (hmem' : mem'.Ok) (argsort argsort' : List (Fl ℝ) → List Nat) (hsort : ∀ v, IsArgsort v (argsort v))
    (hsort' : ∀ v, IsArgsort v (argsort' v)) (size size' : Int) (hsize : 1 ≤ size) (hsize' : 1 ≤ size') (noise : ℝ) (x : List ℝ) (lo k : Nat) (hlo : 2 ≤ lo) (hk : lo + k ≤ x.length)
    (hrel : (x.length : Int) + 1 - lo ≤ size ∨ (noise = 0 ∧ ∀ m, lo < m → m ≤ lo + k → NoNearlyFlat x m))
    (hrel' : (x.length : Int) + 1 - lo ≤ size' ∨ (noise = 0 ∧ ∀ m, lo < m → m ≤ lo + k → NoNearlyFlat x m)) (found found' : List (Option (Nat × Nat)))
    (hf : findMotifs mem argsort (x.map .fin) lo ((lo : Int) + k) size noise = .ok found)
    (hf' : findMotifs mem' argsort' (x.reverse.map .fin) lo ((lo : Int) + k) size' noise = .ok found') (j : Nat) (hj : j ≤ k) :
    ∃ r r', found[j]? = some r ∧ found'[j]? = some r' ∧ IsMotif noise x (lo + j) ((lo + 1) / 2) (otherEnd x.length (lo + j) r') ∧ (r = none ↔ r' = none) ∧
      ∀ q i q' i', r = some (q, i) → otherEnd x.length (lo + j) r' = some (q', i') →
        zdist (lo + j) noise (seqOf x) (seqOf x) q i = zdist (lo + j) noise (seqOf x) (seqOf x) q' i' := by
  have hflat : ∀ m, NoNearlyFlat x m → NoNearlyFlat x.reverse m := by
    intro m h i hi hfl
    rw [List.length_reverse] at hi
    unfold Flat at hfl
    rw [std_reverse m x i hi] at hfl ⊢
    exact h _ (by omega) hfl
  obtain ⟨-, h2⟩ := MotifLengths.found_motif mem hmem argsort hsort size hsize noise x lo k hlo hk hrel hf
  obtain ⟨-, h2'⟩ := MotifLengths.found_motif mem' hmem' argsort' hsort' size' hsize' noise x.reverse lo k hlo (by simpa using hk)
    (by
      rw [List.length_reverse]
      exact hrel'.imp_right fun h => ⟨h.1, fun m g1 g2 => hflat m (h.2 m g1 g2)⟩) hf'
  obtain ⟨r, r1, r2⟩ := h2 j hj
  obtain ⟨r', r1', r2'⟩ := h2' j hj
  have hm := TimeReversal.motif_reverse r2'
  refine ⟨r, r', r1, r1', hm, ?_, (MotifLengths.unique r2 hm).2⟩
  rw [(MotifLengths.unique r2 hm).1]
  unfold otherEnd
  rw [Option.map_eq_none_iff]

/-! ### Concrete cases -/

/-- A series with itself, the default trivial match buffer. -/
example := C110_znorm ZN.zeroMem ZN.zeroMem ZN.zeroMem_ok ZN.zeroMem_ok (1 / 10) List.reverse id List.reverse_perm (fun l => List.Perm.refl l) false true 2 (by norm_num) [1, 5, 2, 8, 3, 3]
  none (by simp) (by simp) none (by simp)

/-- A query. -/
example := C110_znorm ZN.zeroMem ZN.zeroMem ZN.zeroMem_ok ZN.zeroMem_ok 0 List.reverse id List.reverse_perm (fun l => List.Perm.refl l) true false 2 (by norm_num) [1, 5, 2, 8, 3, 3]
  (some [4, 4, 7]) (by simp) (by simp) none (by simp)

/-- Squared distances. -/
example := C110_euclidean (K := ℚ) zeroMem zeroMem (fun n => by simp [zeroMem]) (fun n => by simp [zeroMem]) id List.reverse id List.reverse_perm (fun l => List.Perm.refl l) 2 (by norm_num)
  [1, 5, 2, 8, 3, 3] none (by simp) (by simp) (some 0) (by simp)

/-- The profiles in this case. -/
example : (matrixProfile (Eucl.genOps zeroMem id) (Eucl.prepare zeroMem) List.reverse false 2 ([1, 5, 2, 8].map (Fl.fin (K := ℚ))) none (some 0)).map (fun p => (p.left, p.right)) =
      .ok ([.pinf, .fin 25, .fin 10], [.fin 10, .fin 45, .pinf]) ∧
    (matrixProfile (Eucl.genOps zeroMem id) (Eucl.prepare zeroMem) id false 2 ([8, 2, 5, 1].map (Fl.fin (K := ℚ))) none (some 0)).map (fun p => (p.left, p.right)) =
      .ok ([.pinf, .fin 45, .fin 10], [.fin 10, .fin 25, .pinf]) := by
  decide +kernel

example := C122_consensus ZN.zeroMem ZN.zeroMem ZN.zeroMem_ok ZN.zeroMem_ok Ostinato.sortIdx Ostinato.sortIdx Ostinato.sortIdx_ok Ostinato.sortIdx_ok 3 le_rfl consensusA (by simp [consensusA])
  consensusA_long

/-- One correlation per subsequence is stored, and five. -/
example : ∃ found found' : List (Option (Nat × Nat)), ∃ r r', found[1]? = some r ∧ found'[1]? = some r' ∧ IsMotif 0 motifData 3 1 (otherEnd 8 3 r') := by
  obtain ⟨found, h⟩ := motifData_found 1 (by norm_num)
  obtain ⟨found', h', -⟩ := C59_constant ZN.zeroMem ZN.zeroMem_ok Ostinato.sortIdx Ostinato.sortIdx_ok 5 (by norm_num) 0 motifData.reverse 2 1 le_rfl (by simp [motifData])
    (.inr ⟨rfl, fun m h1 h2 => noNearlyFlat_int _ (fun v hv => motifData_int v (List.mem_reverse.mp hv)) m (by omega) (by omega)⟩) 5 (by simp [motifData]) (by
      intro j hj
      have : j = 0 ∨ j = 1 ∨ j = 2 := by omega
      rcases this with rfl | rfl | rfl <;> simp [motifData, seqOf])
  obtain ⟨r, r', r1, r2, r3, -⟩ := C122_lengths ZN.zeroMem ZN.zeroMem ZN.zeroMem_ok ZN.zeroMem_ok Ostinato.sortIdx Ostinato.sortIdx Ostinato.sortIdx_ok Ostinato.sortIdx_ok 1 5 le_rfl
    (by norm_num) 0 motifData 2 1 le_rfl (by simp [motifData]) (.inr ⟨rfl, motifData_reliable 1 (by norm_num)⟩) (.inr ⟨rfl, motifData_reliable 1 (by norm_num)⟩) found found' h h' 1 le_rfl
  exact ⟨found, found', r, r', r1, r2, r3⟩

end Verif
