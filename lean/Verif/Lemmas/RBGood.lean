import Verif.Props.RingBuffer

/-!
Buffers with at most twice their window as memory (scaling factor at most 2, as in all uses inside the repository):
pushing always succeeds.
-/

namespace Verif
open Spec
variable {α : Type}
namespace RB

/-- A well-formed buffer with window `N` on which pushes cannot fail. -/
structure Good (rb : RB α) (N : Nat) : Prop where
  wf : rb.WF
  vmax : rb.vmax = N
  mem : rb.buf.length ≤ 2 * N

theorem Good.len {rb : RB α} {N : Nat} (h : rb.Good N) : rb.items.length ≤ N := by
  rw [items_length h.wf, ← h.vmax]; exact h.wf.len

theorem Good.pos {rb : RB α} {N : Nat} (h : rb.Good N) : 0 < N := by
  rw [← h.vmax]; exact h.wf.pos

theorem Good.push {rb : RB α} {N : Nat} (h : rb.Good N) (d : List α) :
    ∃ rb', rb.push d = .ok (rb', rb.items.length + d.length - N) ∧ rb'.Good N ∧ rb'.items = lastN N (rb.items ++ d) ∧
      rb'.lead = rb.lead := by
  obtain ⟨rb', hp, hwf, hit, hm, hl, hbl, hv⟩ := push_spec rb h.wf d (not_fails_of_le h.wf (by rw [h.vmax]; exact h.mem) d)
  have := h.len
  refine ⟨rb', ?_, ⟨hwf, by rw [hm, h.vmax], by rw [hbl]; exact h.mem⟩, by rw [hit, h.vmax], hl⟩
  rw [hp]
  congr 2
  unfold overflow
  rw [← items_length h.wf, h.vmax]; omega

theorem mkEmpty_good (lead : List Nat) (n : Nat) (junk : List α) (hn : 0 < n) (hj : junk.length = capacity 2 n) :
    (mkEmpty lead n junk).Good n := by
  have := capacity_ge 2 n (by norm_num)
  have := capacity_le_two_mul 2 n (by norm_num)
  exact ⟨mkEmpty_wf lead n junk hn (by omega), rfl, by simp only [mkEmpty]; omega⟩

theorem init_data_good (lead : List Nat) (data : List α) (hn : data ≠ []) (dt : Bool) (junk : List α)
    (hj : junk.length = capacity 2 data.length) :
    ∃ rb, init (some (lead, data)) none dt junk = .ok rb ∧ rb.Good data.length ∧ rb.items = data ∧ rb.lead = lead := by
  have hg := mkEmpty_good lead data.length junk (List.length_pos_iff.mpr hn) hj
  obtain ⟨rb, hp, hg', hit, hl⟩ := hg.push data
  refine ⟨rb, ?_, hg', ?_, hl⟩
  · have hl : (mkEmpty lead data.length junk).lead = lead := rfl
    simp [init, pushArr, hp, hl, bind, Except.bind, pure, Except.pure]
  · rw [hit, mkEmpty_items, List.nil_append, lastN_of_le _ _ le_rfl]

theorem init_shape_good (lead : List Nat) (data : List α) (n : Nat) (hn : 0 < n) (dt : Bool) (junk : List α)
    (hj : junk.length = capacity 2 n) :
    ∃ rb, init (some (lead, data)) (some (lead, n)) dt junk = .ok rb ∧ rb.Good n ∧ rb.items = lastN n data ∧ rb.lead = lead := by
  have hg := mkEmpty_good lead n junk hn hj
  obtain ⟨rb, hp, hg', hit, hl⟩ := hg.push data
  refine ⟨rb, ?_, hg', ?_, hl⟩
  · have hl : (mkEmpty lead n junk).lead = lead := rfl
    simp [init, pushArr, hp, hl, bind, Except.bind, pure, Except.pure]
  · rw [hit, mkEmpty_items, List.nil_append]

end RB
end Verif
