import Verif.Model.RingBuffer
import Verif.Lemmas.Slices

namespace Verif
open Spec
variable {α : Type}

namespace RB

/-- Representation invariant of a ring buffer. -/
structure WF (rb : RB α) : Prop where
  pos : 0 < rb.vmax
  len : rb.vlen ≤ rb.vmax
  fill : rb.vlen < rb.vmax → rb.vstart = 0
  mem : rb.vstart + rb.vmax ≤ rb.buf.length
  view : rb.view = .window rb.vstart rb.vlen

theorem items_of_wf {rb : RB α} (h : rb.WF) : rb.items = (rb.buf.drop rb.vstart).take rb.vlen := by
  unfold items
  rw [h.view]
  simp only
  rw [pySlice_nat_add]

theorem items_length {rb : RB α} (h : rb.WF) : rb.items.length = rb.vlen := by
  rw [items_of_wf h]
  have := h.mem; have := h.len
  simp; omega

/-- Number of points that remain to be pushed once the window is full. -/
def overflow (rb : RB α) (data : List α) : Nat := data.length - (rb.vmax - rb.vlen)

/-- The only situation in which `push` fails. -/
def PushFails (rb : RB α) (data : List α) : Prop :=
  rb.vmax < rb.overflow data ∧ rb.vstart + rb.vmax + rb.overflow data ≤ rb.buf.length

/-- Behaviour of `push` once the window is full: lines 90-112. -/
theorem push_full (rb : RB α) (h : rb.WF) (hfull : rb.vlen = rb.vmax) (data : List α) (hd : 0 < data.length)
    (hok : ¬ (rb.vmax < data.length ∧ rb.vstart + rb.vmax + data.length ≤ rb.buf.length)) :
    ∃ rb', rb.push data = .ok (rb', data.length) ∧ rb'.WF ∧
      rb'.items = lastN rb.vmax (rb.items ++ data) ∧ rb'.vmax = rb.vmax ∧ rb'.lead = rb.lead ∧
      rb'.buf.length = rb.buf.length ∧ rb'.vlen = rb.vmax := by
  have hm := h.mem
  have hpos := h.pos
  have hitems := items_of_wf h
  have hlen := items_length h
  unfold push
  have h0 : data.length ≠ 0 := by omega
  simp only [h0, if_false, hfull, lt_irrefl, pure_bind, Bool.false_eq_true]
  split
  · rename_i hfit
    have hn : data.length ≤ rb.vmax := by omega
    have e1 : pySlice rb.buf ((rb.vstart + data.length : Nat) : Int) ((rb.vstart + data.length : Nat) + (rb.vmax : Int))
        = (rb.buf.drop (rb.vstart + data.length)).take rb.vmax := pySlice_nat_add _ _ _
    have hl : ((rb.buf.drop (rb.vstart + data.length)).take rb.vmax).length = rb.vmax := by simp; omega
    rw [e1, hl, pyIdx_neg _ _ hd, assignSlice_ok _ _ _ _ (by omega) (by omega)]
    simp only [bind, Except.bind]
    rw [pyAssign_ok_add _ _ _ _ (by simp; omega) (by omega)]
    refine ⟨_, rfl, ?_, ?_, rfl, rfl, ?_, rfl⟩
    · constructor <;> simp <;> omega
    · rw [items_of_wf (by constructor <;> simp <;> omega), hitems, hfull]
      simp only [lastN]
      apply List.ext_getElem?; intro i
      simp only [List.getElem?_append, List.getElem?_take, List.getElem?_drop, List.length_append, List.length_take, List.length_drop]
      grind
    · simp; omega
  · split
    · rename_i hnf hlt
      have e1 : pySlice rb.buf ((rb.vstart : Int) + (data.length : Int)) ((rb.vstart : Int) + (rb.vmax : Int))
         = (rb.buf.drop (rb.vstart + data.length)).take (rb.vmax - data.length) := by
        have := pySlice_nat_add rb.buf (rb.vstart + data.length) (rb.vmax - data.length)
        rw [← this]; push_cast; congr 1; omega
      rw [e1, pyAssign_ok_zero _ _ _ (by simp; omega) (by omega)]
      simp only [bind, Except.bind]
      rw [pyAssign_ok _ _ _ _ (by omega) (by omega) (by simp; omega)]
      refine ⟨_, rfl, ?_, ?_, rfl, rfl, ?_, rfl⟩
      · constructor <;> simp <;> omega
      · rw [items_of_wf (by constructor <;> simp <;> omega), hitems, hfull]
        simp only [lastN]
        apply List.ext_getElem?; intro i
        simp only [List.getElem?_append, List.getElem?_take, List.getElem?_drop, List.length_append, List.length_take, List.length_drop]
        grind
      · simp; omega
    · rename_i hnf hge
      rw [pyFrom_neg _ _ hpos, pyAssign_ok_zero _ _ _ (by simp; omega) (by omega)]
      simp only [bind, Except.bind]
      refine ⟨_, rfl, ?_, ?_, rfl, rfl, ?_, rfl⟩
      · constructor <;> simp <;> omega
      · rw [items_of_wf (by constructor <;> simp <;> omega), lastN_append_right _ _ _ (by omega)]
        simp only [List.drop_zero]
        rw [List.take_append_of_le_length (by simp; omega), List.take_of_length_le (by simp)]
      · simp; omega

/-- Lines 74-85: filling the window. -/
theorem push_fill (rb : RB α) (h : rb.WF) (hlt : rb.vlen < rb.vmax) (data : List α) (hd : 0 < data.length) :
    ∃ rb1, rb1.WF ∧ rb1.vmax = rb.vmax ∧ rb1.lead = rb.lead ∧ rb1.buf.length = rb.buf.length ∧ rb1.vstart = 0 ∧
      rb1.vlen = rb.vlen + min data.length (rb.vmax - rb.vlen) ∧
      rb1.items = rb.items ++ data.take (min data.length (rb.vmax - rb.vlen)) ∧
      rb.push data = if data.length ≤ rb.vmax - rb.vlen then .ok (rb1, 0)
        else rb1.push (data.drop (rb.vmax - rb.vlen)) := by
  have hm := h.mem
  have hpos := h.pos
  have hv := h.fill hlt
  have hitems := items_of_wf h
  obtain ⟨d, hdef⟩ : ∃ d, d = min data.length (rb.vmax - rb.vlen) := ⟨_, rfl⟩
  rw [← hdef]
  let rb1 : RB α := { rb with buf := rb.buf.take rb.vlen ++ data.take d ++ rb.buf.drop (rb.vlen + d), vlen := rb.vlen + d, view := .window 0 (rb.vlen + d) }
  have hwf : rb1.WF := by
    constructor <;> simp [rb1, hv] <;> omega
  refine ⟨rb1, hwf, rfl, rfl, ?_, hv, rfl, ?_, ?_⟩
  · simp [rb1]; omega
  · rw [items_of_wf hwf, hitems]
    simp only [rb1, hv]
    apply List.ext_getElem?; intro i
    simp only [List.getElem?_append, List.getElem?_take, List.getElem?_drop, List.length_append, List.length_take, List.length_drop]
    grind
  · have h0 : data.length ≠ 0 := by omega
    conv_lhs => unfold push
    simp only [h0, if_false, hlt, if_true, ← hdef]
    rw [pyTo_nat, pyAssign_ok_add _ _ _ _ (by simp; omega) (by omega)]
    simp only [bind, Except.bind]
    by_cases hdl : data.length = d
    · rw [if_pos (show data.length ≤ rb.vmax - rb.vlen by omega)]
      simp only [hdl, if_true, pure, Except.pure]
      rfl
    · rw [if_neg (show ¬ data.length ≤ rb.vmax - rb.vlen by omega)]
      have hd2 : rb.vmax - rb.vlen = d := by omega
      simp only [hdl, if_false, pure, Except.pure, Bool.false_eq_true, hd2]
      rw [pyFrom_nat]
      conv_rhs => unfold push
      have h1 : (data.drop d).length ≠ 0 := by simp; omega
      have h2 : ¬ (rb1.vlen < rb1.vmax) := by simp [rb1]; omega
      simp only [h1, if_false, h2, bind, Except.bind, pure, Except.pure, Bool.false_eq_true]
      rfl

/-- `push` succeeds except in the situation `PushFails`, keeps the invariant and slides the window. -/
theorem push_spec (rb : RB α) (h : rb.WF) (data : List α) (hok : ¬ rb.PushFails data) :
    ∃ rb', rb.push data = .ok (rb', rb.overflow data) ∧ rb'.WF ∧
      rb'.items = lastN rb.vmax (rb.items ++ data) ∧ rb'.vmax = rb.vmax ∧ rb'.lead = rb.lead ∧
      rb'.buf.length = rb.buf.length ∧ rb'.vlen = min rb.vmax (rb.vlen + data.length) := by
  have hlen := items_length h
  have hl := h.len
  rcases Nat.eq_zero_or_pos data.length with h0 | hd
  · have : data = [] := List.length_eq_zero_iff.mp h0
    subst this
    refine ⟨rb, ?_, h, ?_, rfl, rfl, rfl, ?_⟩
    · simp [push, overflow, pure, Except.pure]
    · simp only [List.append_nil]
      rw [lastN_of_le _ _ (by omega)]
    · simp; omega
  by_cases hlt : rb.vlen < rb.vmax
  · obtain ⟨rb1, hwf1, hmax, hlead, hbuf, hst, hvl, hit, hpush⟩ := push_fill rb h hlt data hd
    by_cases hle : data.length ≤ rb.vmax - rb.vlen
    · rw [if_pos hle] at hpush
      have ho : rb.overflow data = 0 := by unfold overflow; omega
      rw [Nat.min_eq_left hle] at hvl hit
      refine ⟨rb1, by rw [hpush, ho], hwf1, ?_, hmax, hlead, hbuf, by omega⟩
      rw [hit, List.take_length, lastN_of_le _ _ (by simp; omega)]
    · rw [if_neg hle] at hpush
      rw [Nat.min_eq_right (by omega)] at hvl hit
      have ho : rb.overflow data = (data.drop (rb.vmax - rb.vlen)).length := by unfold overflow; simp
      unfold PushFails at hok
      rw [ho] at hok
      obtain ⟨rb', hp, hwf', hit', hmax', hlead', hbuf', hvl'⟩ := push_full rb1 hwf1 (by omega) (data.drop (rb.vmax - rb.vlen))
        (by simp; omega) (by rw [hmax, hst, hbuf]; rw [h.fill hlt] at hok; exact hok)
      refine ⟨rb', by rw [hpush, hp, ho], hwf', ?_, by omega, by rw [hlead', hlead], by omega, by omega⟩
      rw [hit', hit, hmax, List.append_assoc, List.take_append_drop]
  · have hfull : rb.vlen = rb.vmax := by omega
    have ho : rb.overflow data = data.length := by unfold overflow; omega
    unfold PushFails at hok
    rw [ho] at hok
    obtain ⟨rb', hp, hwf', hit', hmax', hlead', hbuf', hvl'⟩ := push_full rb h hfull data hd hok
    exact ⟨rb', by rw [hp, ho], hwf', hit', hmax', hlead', hbuf', by omega⟩

/-- In the situation `PushFails`, `push` raises `ValueError`. -/
theorem push_fails (rb : RB α) (h : rb.WF) (data : List α) (hf : rb.PushFails data) :
    rb.push data = .error .valueError := by
  have hpos := h.pos
  have hl := h.len
  -- the full case
  have full : ∀ (rb : RB α) (data : List α), rb.WF → rb.vlen = rb.vmax → rb.vmax < data.length →
      rb.vstart + rb.vmax + data.length ≤ rb.buf.length → rb.push data = .error .valueError := by
    intro rb data h hfull h1 h2
    have hpos := h.pos
    unfold push
    have h0 : data.length ≠ 0 := by omega
    simp only [h0, if_false, hfull, lt_irrefl, pure_bind, Bool.false_eq_true, h2, if_true]
    have e1 : pySlice rb.buf ((rb.vstart + data.length : Nat) : Int) ((rb.vstart + data.length : Nat) + (rb.vmax : Int))
        = (rb.buf.drop (rb.vstart + data.length)).take rb.vmax := pySlice_nat_add _ _ _
    have hl : ((rb.buf.drop (rb.vstart + data.length)).take rb.vmax).length = rb.vmax := by simp; omega
    rw [e1, hl, pyIdx_neg _ _ (by omega), Nat.sub_eq_zero_of_le (by omega)]
    have : ∀ l : List α, assignSlice l 0 rb.vmax data = .error .valueError := by
      intro l
      unfold assignSlice
      have : ¬ data.length = max 0 rb.vmax - 0 := by simp; omega
      simp only [this, if_false]
      split
      · simp at h1; omega
      · rfl
    rw [this]
    rfl
  unfold PushFails overflow at hf
  by_cases hlt : rb.vlen < rb.vmax
  · obtain ⟨rb1, hwf1, hmax, hlead, hbuf, hst, hvl, hit, hpush⟩ := push_fill rb h hlt data (by omega)
    rw [hpush, if_neg (by omega)]
    have := h.fill hlt
    apply full rb1 _ hwf1 (by omega) (by simp; omega) (by simp; omega)
  · exact full rb data h (by omega) (by omega) (by omega)

theorem mkEmpty_wf (lead : List Nat) (n : Nat) (junk : List α) (hn : 0 < n) (hj : n ≤ junk.length) :
    (mkEmpty lead n junk).WF := by
  constructor <;> simp [mkEmpty] <;> omega

theorem mkEmpty_items (lead : List Nat) (n : Nat) (junk : List α) : (mkEmpty lead n junk).items = [] := by
  simp [mkEmpty, items, pySlice]

/-- Writing through the view: contents. -/
theorem writeBack_wf (rb : RB α) (h : rb.WF) (v : List α) (hv : v.length = rb.vlen) :
    ∃ buf, pyAssign rb.buf rb.vstart (rb.vstart + rb.vlen) v = .ok buf ∧
      ({ rb with buf := buf } : RB α).WF ∧ ({ rb with buf := buf } : RB α).items = v ∧ buf.length = rb.buf.length := by
  have hm := h.mem; have hl := h.len
  refine ⟨_, pyAssign_ok_add _ _ _ _ hv (by omega), ?_, ?_, ?_⟩
  · constructor <;> simp [h.view] <;> first | exact h.pos | exact h.fill | omega
  · rw [items_of_wf (by constructor <;> simp [h.view] <;> first | exact h.pos | exact h.fill | omega)]
    apply List.ext_getElem?; intro i
    simp only [List.getElem?_append, List.getElem?_take, List.getElem?_drop, List.length_append, List.length_take, List.length_drop]
    grind
  · simp; omega

theorem setSlice_spec (rb : RB α) (h : rb.WF) (a b : Int) (vals : List α) :
    match pyAssign rb.items a b vals with
    | .ok w => ∃ rb', rb.setSlice a b vals = .ok rb' ∧ rb'.WF ∧ rb'.items = w ∧ rb'.vmax = rb.vmax ∧
        rb'.lead = rb.lead ∧ rb'.buf.length = rb.buf.length ∧ rb'.vlen = rb.vlen ∧ rb'.vstart = rb.vstart
    | .error e => rb.setSlice a b vals = .error e := by
  cases hp : pyAssign rb.items a b vals with
  | error e => simp [setSlice, hp, bind, Except.bind]
  | ok w =>
    simp only
    have hw : w.length = rb.vlen := by rw [pyAssign_length _ _ _ _ _ hp, items_length h]
    obtain ⟨buf, hb, hwf, hit, hbl⟩ := writeBack_wf rb h w hw
    refine ⟨{ rb with buf := buf }, ?_, hwf, hit, rfl, rfl, hbl, rfl, rfl⟩
    simp [setSlice, hp, bind, Except.bind, h.view, hb, pure, Except.pure]

theorem setItem_spec (rb : RB α) (h : rb.WF) (i : Int) (x : α) :
    match pySet rb.items i x with
    | .ok w => ∃ rb', rb.setItem i x = .ok rb' ∧ rb'.WF ∧ rb'.items = w ∧ rb'.vmax = rb.vmax ∧
        rb'.lead = rb.lead ∧ rb'.buf.length = rb.buf.length ∧ rb'.vlen = rb.vlen ∧ rb'.vstart = rb.vstart
    | .error e => rb.setItem i x = .error e := by
  cases hp : pySet rb.items i x with
  | error e => simp [setItem, hp, bind, Except.bind]
  | ok w =>
    simp only
    have hw : w.length = rb.vlen := by rw [pySet_length _ _ _ _ hp, items_length h]
    obtain ⟨buf, hb, hwf, hit, hbl⟩ := writeBack_wf rb h w hw
    refine ⟨{ rb with buf := buf }, ?_, hwf, hit, rfl, rfl, hbl, rfl, rfl⟩
    simp [setItem, hp, bind, Except.bind, h.view, hb, pure, Except.pure]

end RB
end Verif
