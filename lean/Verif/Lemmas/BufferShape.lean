import Verif.Model.RingBuffer
import Verif.Lemmas.Mimic

/-!
Ring buffers of the same shape raise alike.
-/

namespace Verif
open Spec
variable {α β : Type}

/-- Two lists of the same length. -/
def SameLen (l : List α) (l' : List β) : Prop := l'.length = l.length

theorem SameLen.slice {l : List α} {l' : List β} (h : SameLen l l') (a b : Int) : SameLen (pySlice l a b) (pySlice l' a b) := by
  unfold SameLen pySlice at *
  rw [List.length_drop, List.length_drop, List.length_take, List.length_take, h]

theorem SameLen.to {l : List α} {l' : List β} (h : SameLen l l') (b : Int) : SameLen (pyTo l b) (pyTo l' b) := by
  unfold SameLen pyTo at *
  rw [List.length_take, List.length_take, h]

theorem SameLen.from {l : List α} {l' : List β} (h : SameLen l l') (b : Int) : SameLen (pyFrom l b) (pyFrom l' b) := by
  unfold SameLen pyFrom at *
  rw [List.length_drop, List.length_drop, h]

theorem assignSlice_len {l : List α} {l' : List β} (h : SameLen l l') {v : List α} {v' : List β} (hv : SameLen v v') (lo hi : Nat) :
    Alike SameLen (assignSlice l lo hi v) (assignSlice l' lo hi v') := by
  unfold assignSlice SameLen at *
  dsimp only
  rw [hv]
  split
  · refine .ok ?_
    simp only [List.length_append, List.length_take, List.length_drop, h, hv]
  · match v, v', hv with
    | [], [], _ => exact .err _
    | [x], [y], _ =>
      refine .ok ?_
      simp only [List.length_append, List.length_take, List.length_drop, List.length_replicate, h]
    | _ :: _ :: _, _ :: _ :: _, _ => exact .err _

theorem pyAssign_len {l : List α} {l' : List β} (h : SameLen l l') {v : List α} {v' : List β} (hv : SameLen v v') (a b : Int) :
    Alike SameLen (pyAssign l a b v) (pyAssign l' a b v') := by
  unfold pyAssign
  rw [show l'.length = l.length from h]
  exact assignSlice_len h hv _ _

theorem pySet_len {l : List α} {l' : List β} (h : SameLen l l') (i : Int) (x : α) (y : β) : Alike SameLen (pySet l i x) (pySet l' i y) := by
  unfold pySet
  rw [show l'.length = l.length from h]
  dsimp only
  generalize (if i < 0 then (l.length : Int) + i else i) = j
  by_cases h1 : j < 0
  · rw [if_pos h1, if_pos h1]; exact .err _
  · rw [if_neg h1, if_neg h1]
    by_cases h2 : j.toNat < l.length
    · rw [if_pos h2, if_pos h2]
      refine .ok ?_
      unfold SameLen at *
      rw [List.length_set, List.length_set, h]
    · rw [if_neg h2, if_neg h2]; exact .err _

theorem pyGet_len {l : List α} {l' : List β} (h : SameLen l l') (i : Int) : Alike (fun _ _ => True) (pyGet l i) (pyGet l' i) := by
  unfold pyGet
  rw [show l'.length = l.length from h]
  dsimp only
  generalize (if i < 0 then (l.length : Int) + i else i) = j
  by_cases h1 : j < 0
  · rw [if_pos h1, if_pos h1]; exact .err _
  · rw [if_neg h1, if_neg h1]
    rcases Nat.lt_or_ge j.toNat l.length with h2 | h2
    · rw [List.getElem?_eq_getElem h2, List.getElem?_eq_getElem (show j.toNat < l'.length by rw [show l'.length = l.length from h]; exact h2)]
      exact .ok trivial
    · rw [List.getElem?_eq_none h2, List.getElem?_eq_none (show l'.length ≤ j.toNat by rw [show l'.length = l.length from h]; exact h2)]
      exact .err _

theorem pyGet_forall₂ {R : α → β → Prop} {l : List α} {l' : List β} (h : List.Forall₂ R l l') (i : Int) : Alike R (pyGet l i) (pyGet l' i) := by
  unfold pyGet
  rw [← h.length_eq]
  dsimp only
  generalize (if i < 0 then (l.length : Int) + i else i) = j
  by_cases h1 : j < 0
  · rw [if_pos h1, if_pos h1]; exact .err _
  · rw [if_neg h1, if_neg h1]
    rcases Nat.lt_or_ge j.toNat l.length with h2 | h2
    · have h3 : j.toNat < l'.length := by rw [← h.length_eq]; exact h2
      rw [List.getElem?_eq_getElem h2, List.getElem?_eq_getElem h3]
      exact .ok ((List.forall₂_iff_get.mp h).2 _ h2 h3)
    · rw [List.getElem?_eq_none h2, List.getElem?_eq_none (by rw [← h.length_eq]; exact h2)]
      exact .err _

theorem pySet_forall₂ {R : α → β → Prop} {l : List α} {l' : List β} (h : List.Forall₂ R l l') (i : Int) {x : α} {y : β} (hxy : R x y) :
    Alike (List.Forall₂ R) (pySet l i x) (pySet l' i y) := by
  unfold pySet
  rw [← h.length_eq]
  dsimp only
  generalize (if i < 0 then (l.length : Int) + i else i) = j
  by_cases h1 : j < 0
  · rw [if_pos h1, if_pos h1]; exact .err _
  · rw [if_neg h1, if_neg h1]
    by_cases h2 : j.toNat < l.length
    · rw [if_pos h2, if_pos h2]
      refine .ok (List.forall₂_iff_get.mpr ⟨by rw [List.length_set, List.length_set, h.length_eq], fun k hk hk' => ?_⟩)
      rw [List.get_eq_getElem, List.get_eq_getElem, List.getElem_set, List.getElem_set]
      split
      · exact hxy
      · exact (List.forall₂_iff_get.mp h).2 k (by simpa using hk) (by simpa using hk')
    · rw [if_neg h2, if_neg h2]; exact .err _

/-- The contents of two views have the same length. -/
def ViewRef.Like : ViewRef α → ViewRef β → Prop
  | .window s n, .window s' n' => s' = s ∧ n' = n
  | .detached d, .detached d' => SameLen d d'
  | _, _ => False

/-- Ring buffers that differ in the contents only. -/
structure RB.Like (a : RB α) (b : RB β) : Prop where
  lead : b.lead = a.lead
  buf : SameLen a.buf b.buf
  vmax : b.vmax = a.vmax
  vstart : b.vstart = a.vstart
  vlen : b.vlen = a.vlen
  view : a.view.Like b.view

theorem ViewRef.Like.refl (v : ViewRef α) : v.Like v := by
  cases v
  · exact ⟨rfl, rfl⟩
  · rfl

theorem RB.Like.refl (a : RB α) : a.Like a := ⟨rfl, rfl, rfl, rfl, rfl, .refl _⟩

theorem RB.Like.items {a : RB α} {b : RB β} (h : a.Like b) : SameLen a.items b.items := by
  unfold RB.items
  have := h.view
  cases ea : a.view <;> cases eb : b.view <;> rw [ea, eb] at this
  · obtain ⟨rfl, rfl⟩ := this
    exact h.buf.slice _ _
  · exact this.elim
  · exact this.elim
  · exact this

theorem RB.Like.write {a : RB α} {b : RB β} (h : a.Like b) {v : List α} {v' : List β} (hv : SameLen v v') :
    Alike RB.Like (match a.view with
        | .window s n => do
          let buf ← pyAssign a.buf s (s + n) v
          return { a with buf := buf }
        | .detached _ => return { a with view := .detached v })
      (match b.view with
        | .window s n => do
          let buf ← pyAssign b.buf s (s + n) v'
          return { b with buf := buf }
        | .detached _ => return { b with view := .detached v' }) := by
  have := h.view
  cases ea : a.view <;> cases eb : b.view <;> rw [ea, eb] at this
  · obtain ⟨rfl, rfl⟩ := this
    dsimp only
    refine (pyAssign_len h.buf hv _ _).bind fun x y hxy => .ok ⟨h.lead, hxy, h.vmax, h.vstart, h.vlen, ?_⟩
    exact ⟨rfl, rfl⟩
  · exact this.elim
  · exact this.elim
  · exact .ok ⟨h.lead, h.buf, h.vmax, h.vstart, h.vlen, hv⟩

theorem RB.Like.setSlice {a : RB α} {b : RB β} (h : a.Like b) (lo hi : Int) {v : List α} {v' : List β} (hv : SameLen v v') :
    Alike RB.Like (a.setSlice lo hi v) (b.setSlice lo hi v') := by
  unfold RB.setSlice
  exact (pyAssign_len h.items hv lo hi).bind fun x y hxy => h.write hxy

theorem RB.Like.setItem {a : RB α} {b : RB β} (h : a.Like b) (i : Int) (x : α) (y : β) : Alike RB.Like (a.setItem i x) (b.setItem i y) := by
  unfold RB.setItem
  exact (pySet_len h.items i x y).bind fun x y hxy => h.write hxy

/-- The part of `push` (ringbuffer.py:87-112) after the view has its length. -/
def pushRest (rb : RB α) (data : List α) : Except PyErr (RB α × Nat) :=
  if rb.vstart + rb.vmax + data.length ≤ rb.buf.length then do
    let win := pySlice rb.buf (rb.vstart + data.length : Nat) ((rb.vstart + data.length : Nat) + rb.vmax)
    let win ← assignSlice win (pyIdx win.length (-(data.length : Int))) win.length data
    let buf ← pyAssign rb.buf (rb.vstart + data.length : Nat) ((rb.vstart + data.length : Nat) + rb.vmax) win
    return ({ rb with buf := buf, vstart := rb.vstart + data.length, view := .window (rb.vstart + data.length) rb.vmax }, data.length)
  else if data.length < rb.vmax then do
    let buf ← pyAssign rb.buf 0 (rb.vmax - data.length : Nat) (pySlice rb.buf (rb.vstart + data.length) (rb.vstart + rb.vmax))
    let buf ← pyAssign buf (rb.vmax - data.length : Nat) rb.vmax data
    return ({ rb with buf := buf, vstart := 0, view := .window 0 rb.vmax }, data.length)
  else do
    let buf ← pyAssign rb.buf 0 rb.vmax (pyFrom data (-(rb.vmax : Int)))
    return ({ rb with buf := buf, vstart := 0, view := .window 0 rb.vmax }, data.length)

theorem push_eq (rb : RB α) (data : List α) : rb.push data =
    if data.length = 0 then .ok (rb, 0)
    else if rb.vlen < rb.vmax then do
      let delta := min data.length (rb.vmax - rb.vlen)
      let buf ← pyAssign rb.buf rb.vlen (rb.vlen + delta) (pyTo data delta)
      let rb : RB α := { rb with buf := buf, vlen := rb.vlen + delta, view := .window 0 (rb.vlen + delta) }
      if data.length = delta then .ok (rb, 0) else pushRest rb (pyFrom data delta)
    else pushRest rb data := by
  unfold RB.push pushRest
  split
  · rfl
  · split
    · dsimp only
      congr 1
    · rfl

theorem RB.Like.push {a : RB α} {b : RB β} (h : a.Like b) {v : List α} {v' : List β} (hv : SameLen v v') :
    Alike (fun x y => x.1.Like y.1 ∧ y.2 = x.2) (a.push v) (b.push v') := by
  have rest : ∀ {a1 : RB α} {b1 : RB β} {v1 : List α} {v1' : List β}, a1.Like b1 → SameLen v1 v1' →
      Alike (fun x y => x.1.Like y.1 ∧ y.2 = x.2) (pushRest a1 v1) (pushRest b1 v1') := by
    intro a1 b1 v1 v1' h1 hv1
    unfold pushRest
    rw [show v1'.length = v1.length from hv1, h1.vstart, h1.vmax, show b1.buf.length = a1.buf.length from h1.buf]
    split
    · have hw := h1.buf.slice ((a1.vstart + v1.length : Nat) : Int) ((a1.vstart + v1.length : Nat) + (a1.vmax : Int))
      dsimp only
      rw [show (pySlice b1.buf ((a1.vstart + v1.length : Nat) : Int) ((a1.vstart + v1.length : Nat) + (a1.vmax : Int))).length = _ from hw]
      exact (assignSlice_len hw hv1 _ _).bind fun x y hxy => (pyAssign_len h1.buf hxy _ _).bind fun p q hpq =>
        .ok ⟨⟨h1.lead, hpq, rfl, rfl, h1.vlen, rfl, rfl⟩, rfl⟩
    · split
      · exact (pyAssign_len h1.buf (h1.buf.slice _ _) _ _).bind fun x y hxy => (pyAssign_len hxy hv1 _ _).bind fun p q hpq =>
          .ok ⟨⟨h1.lead, hpq, rfl, rfl, h1.vlen, rfl, rfl⟩, rfl⟩
      · exact (pyAssign_len h1.buf (hv1.from _) _ _).bind fun p q hpq => .ok ⟨⟨h1.lead, hpq, rfl, rfl, h1.vlen, rfl, rfl⟩, rfl⟩
  rw [push_eq, push_eq, show v'.length = v.length from hv, h.vlen, h.vmax]
  split
  · exact .ok ⟨h, rfl⟩
  · split
    · dsimp only
      refine (pyAssign_len h.buf (hv.to _) _ _).bind fun x y hxy => ?_
      split
      · exact .ok ⟨⟨h.lead, hxy, rfl, h.vstart, rfl, rfl, rfl⟩, rfl⟩
      · exact rest ⟨h.lead, hxy, rfl, h.vstart, rfl, rfl, rfl⟩ (hv.from _)
    · exact rest h hv

theorem RB.Like.pushArr {a : RB α} {b : RB β} (h : a.Like b) (lead : List Nat) {v : List α} {v' : List β} (hv : SameLen v v') :
    Alike (fun x y => x.1.Like y.1 ∧ y.2 = x.2) (a.pushArr lead v) (b.pushArr lead v') := by
  unfold RB.pushArr
  rw [h.lead]
  split
  · exact .err _
  · exact h.push hv

end Verif
