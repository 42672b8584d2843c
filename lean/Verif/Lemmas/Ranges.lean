import Verif.Py

namespace Verif

theorem pyRange_length (a b : Int) : (pyRange a b).length = (b - a).toNat := by simp [pyRange]

theorem pyRangeDown_length (a b : Int) : (pyRangeDown a b).length = (a - b).toNat := by simp [pyRangeDown]

theorem pyRange_getElem? (a b : Int) (k : Nat) :
    (pyRange a b)[k]? = if k < (b - a).toNat then some (a + k) else none := by
  simp only [pyRange, List.getElem?_map, List.getElem?_range']
  split <;> rename_i h
  · rw [List.getElem?_range h]; rfl
  · rw [List.getElem?_eq_none (by simpa using h)]; rfl

theorem mem_pyRange {a b i : Int} : i ∈ pyRange a b ↔ a ≤ i ∧ i < b := by
  simp only [pyRange, List.mem_map, List.mem_range]
  constructor
  · rintro ⟨k, hk, rfl⟩; omega
  · rintro ⟨h1, h2⟩; exact ⟨(i - a).toNat, by omega, by omega⟩

theorem pyRange_nat (b : Nat) : pyRange 0 b = (List.range b).map fun k : Nat => (k : Int) := by
  simp [pyRange]

/-- Two ranges zipped together. -/
theorem zip_pyRange (a b n : Int) :
    (pyRange a (a + n)).zip (pyRange b (b + n)) = (List.range n.toNat).map fun k : Nat => (a + (k : Int), b + (k : Int)) := by
  simp only [pyRange, show a + n - a = n by omega, show b + n - b = n by omega]
  rw [List.zip_map, List.zip_eq_zipWith, List.zipWith_self, List.map_map]
  rfl

end Verif
