import Verif.Lemmas.RingBuffer
import Verif.Spec.Window
import Mathlib.Tactic.NormNum
import Mathlib.Tactic.Linarith

/-!
# C01–C05: `RingBuffer`
-/

namespace Verif
open Spec
variable {α : Type}

namespace RB

/-- A sequence of `push` calls (client code, ringbuffer.py:56). -/
def pushes (rb : RB α) : List (List α) → Except PyErr (RB α)
  | [] => .ok rb
  | d :: ds => do
      let (rb, _) ← rb.push d
      rb.pushes ds

/-- One client operation on a ring buffer. -/
def applyOp (rb : RB α) : WOp α → Except PyErr (RB α)
  | .push d => do
      let (rb, _) ← rb.push d
      return rb
  | .setItem i x => rb.setItem i x
  | .setSlice a b v => rb.setSlice a b v

/-- A sequence of client operations; stops at the first one that raises. -/
def runOps (rb : RB α) : List (WOp α) → Except PyErr (RB α)
  | [] => .ok rb
  | op :: ops => do (← rb.applyOp op).runOps ops

end RB

/-! ### Helper facts about the constructor -/

theorem capacity_ge (s : ℚ) (n : Nat) (h : 1 ≤ s) : n ≤ RB.capacity s n := by
  unfold RB.capacity
  have hn : (0 : ℚ) ≤ n := by positivity
  have h1 : (n : ℚ) ≤ s * n := by nlinarith
  have h2 : (n : ℤ) ≤ ⌈s * n⌉ := by
    have := Int.le_ceil (s * n)
    exact_mod_cast h1.trans this
  omega

theorem capacity_le_two_mul (s : ℚ) (n : Nat) (h : s ≤ 2) : RB.capacity s n ≤ 2 * n := by
  unfold RB.capacity
  have hn : (0 : ℚ) ≤ n := by positivity
  have : ⌈s * n⌉ ≤ (2 * n : ℕ) := by
    rw [Int.ceil_le]; push_cast; nlinarith
  omega

theorem capacity_gt_two_mul (s : ℚ) (n : Nat) (hn : 0 < n) (h : 2 < s) : 2 * n + 1 ≤ RB.capacity s n := by
  unfold RB.capacity
  have hn : (0 : ℚ) < n := by exact_mod_cast hn
  have : ((2 * n : ℕ) : ℤ) < ⌈s * n⌉ := by
    rw [Int.lt_ceil]; push_cast; nlinarith
  omega

namespace RB

theorem not_fails_of_le {rb : RB α} (h : rb.WF) (hb : rb.buf.length ≤ 2 * rb.vmax) (d : List α) :
    ¬ rb.PushFails d := by
  unfold PushFails
  omega

theorem pushes_spec (rb : RB α) (h : rb.WF) (hb : rb.buf.length ≤ 2 * rb.vmax) (ds : List (List α)) :
    ∃ rb', rb.pushes ds = .ok rb' ∧ rb'.WF ∧ rb'.vmax = rb.vmax ∧ rb'.buf.length = rb.buf.length ∧
      rb'.items = lastN rb.vmax (rb.items ++ ds.flatten) := by
  induction ds generalizing rb with
  | nil =>
    refine ⟨rb, rfl, h, rfl, rfl, ?_⟩
    have := items_length h; have := h.len
    simp only [List.flatten_nil, List.append_nil]
    rw [lastN_of_le _ _ (by omega)]
  | cons d ds ih =>
    obtain ⟨rb1, hp, hwf, hit, hm, _, hbl, _⟩ := push_spec rb h d (not_fails_of_le h hb d)
    obtain ⟨rb', hp', hwf', hm', hbl', hit'⟩ := ih rb1 hwf (by omega)
    refine ⟨rb', ?_, hwf', by omega, by omega, ?_⟩
    · simp only [pushes, hp, bind, Except.bind]; exact hp'
    · rw [hit', hit, hm, lastN_lastN_append, List.flatten_cons, List.append_assoc]

/-- Whatever the amount of memory: one operation that does not run into `PushFails` refines the abstract window. -/
theorem applyOp_refines (rb : RB α) (h : rb.WF) (op : WOp α) :
    (∃ rb' w, rb.applyOp op = .ok rb' ∧ op.apply rb.vmax rb.items = .ok w ∧ rb'.items = w ∧ rb'.WF ∧ rb'.vmax = rb.vmax ∧
        rb'.buf.length = rb.buf.length) ∨
    (∃ e, rb.applyOp op = .error e ∧
        (op.apply rb.vmax rb.items = .error e ∨ ∃ d, op = .push d ∧ rb.PushFails d)) := by
  cases op with
  | push d =>
    by_cases hf : rb.PushFails d
    · right
      refine ⟨.valueError, ?_, Or.inr ⟨d, rfl, hf⟩⟩
      simp [applyOp, push_fails rb h d hf, bind, Except.bind]
    · left
      obtain ⟨rb1, hp, hwf, hit, hm, _, hbl, _⟩ := push_spec rb h d hf
      exact ⟨rb1, _, by simp [applyOp, hp, bind, Except.bind, pure, Except.pure], rfl, hit, hwf, hm, hbl⟩
  | setItem i x =>
    have := setItem_spec rb h i x
    cases hp : pySet rb.items i x with
    | error e => rw [hp] at this; exact Or.inr ⟨e, this, Or.inl hp⟩
    | ok w =>
      rw [hp] at this
      obtain ⟨rb', h1, h2, h3, h4, h5, h6, h7, h8⟩ := this
      exact Or.inl ⟨rb', w, h1, hp, h3, h2, h4, h6⟩
  | setSlice a b v =>
    have := setSlice_spec rb h a b v
    cases hp : pyAssign rb.items a b v with
    | error e => rw [hp] at this; exact Or.inr ⟨e, this, Or.inl hp⟩
    | ok w =>
      rw [hp] at this
      obtain ⟨rb', h1, h2, h3, h4, h5, h6, h7, h8⟩ := this
      exact Or.inl ⟨rb', w, h1, hp, h3, h2, h4, h6⟩

/-- With at most twice the window as memory, a buffer and the abstract window behave identically. -/
theorem runOps_refines (rb : RB α) (h : rb.WF) (hb : rb.buf.length ≤ 2 * rb.vmax) (ops : List (WOp α)) :
    (rb.runOps ops).map items = WOp.run rb.vmax rb.items ops := by
  induction ops generalizing rb with
  | nil => rfl
  | cons op ops ih =>
    rcases applyOp_refines rb h op with ⟨rb', w, h1, h2, h3, h4, h5, h6⟩ | ⟨e, h1, h2 | ⟨d, _, hf⟩⟩
    · simp only [runOps, WOp.run, h1, h2, bind, Except.bind]
      rw [ih rb' h4 (by omega), h5, h3]
    · simp [runOps, WOp.run, h1, h2, bind, Except.bind, Except.map]
    · exact absurd hf (not_fails_of_le h hb d)

/-- Whatever the amount of memory: a run that succeeds shows what the abstract window shows. -/
theorem runOps_sound (rb : RB α) (h : rb.WF) (ops : List (WOp α)) (rb' : RB α) (hr : rb.runOps ops = .ok rb') :
    rb'.WF ∧ rb'.vmax = rb.vmax ∧ rb'.buf.length = rb.buf.length ∧ WOp.run rb.vmax rb.items ops = .ok rb'.items := by
  induction ops generalizing rb with
  | nil => cases hr; exact ⟨h, rfl, rfl, rfl⟩
  | cons op ops ih =>
    rcases applyOp_refines rb h op with ⟨rb1, w, h1, h2, h3, h4, h5, h6⟩ | ⟨e, h1, _⟩
    · simp only [runOps, h1, bind, Except.bind] at hr
      obtain ⟨a, b, c, d⟩ := ih rb1 h4 hr
      refine ⟨a, by omega, by omega, ?_⟩
      simp only [WOp.run, h2, bind, Except.bind]
      rw [← d, h5, h3]
    · simp [runOps, h1, bind, Except.bind] at hr

end RB

/-! ### C01 -/

theorem capacity_six : RB.capacity (3 / 2) 4 = 6 := by norm_num [RB.capacity]; rfl

/-- **C01**, buffers constructed without data: after any chunks the buffer shows the newest `n` points of the stream. -/
theorem C01_window (scale : ℚ) (h1 : 1 ≤ scale) (h2 : scale ≤ 2) (lead : List Nat) (n : Nat) (hn : 0 < n)
    (junk : List α) (hj : junk.length = RB.capacity scale n) (chunks : List (List α)) :
    ∃ rb0 rb, RB.init none (some (lead, n)) true junk = .ok rb0 ∧ rb0.pushes chunks = .ok rb ∧
      rb.items = lastN n chunks.flatten := by
  have := capacity_ge scale n h1
  have := capacity_le_two_mul scale n h2
  have hwf := RB.mkEmpty_wf lead n junk hn (by omega)
  obtain ⟨rb', hp, _, hm, _, hit⟩ := RB.pushes_spec _ hwf (by simp only [RB.mkEmpty]; omega) chunks
  refine ⟨_, rb', rfl, hp, ?_⟩
  rw [hit, RB.mkEmpty_items]; rfl

example := C01_window (3 / 2) (by norm_num) (by norm_num) [] 4 (by decide) [9, 9, 9, 9, 9, 9] (by rw [capacity_six]; rfl)
  [[0, 1], [], [2, 3, 4, 5], [6], [7, 8]]

/-- **C01**, buffers constructed with initial data (of any length, also larger than the window). -/
theorem C01_window_init (scale : ℚ) (h1 : 1 ≤ scale) (h2 : scale ≤ 2) (lead : List Nat) (n : Nat) (hn : 0 < n)
    (data : List α) (dt : Bool) (junk : List α) (hj : junk.length = RB.capacity scale n) (chunks : List (List α)) :
    ∃ rb0 rb, RB.init (some (lead, data)) (some (lead, n)) dt junk = .ok rb0 ∧ rb0.pushes chunks = .ok rb ∧
      rb.items = lastN n (data ++ chunks.flatten) := by
  have := capacity_ge scale n h1
  have := capacity_le_two_mul scale n h2
  have hwf := RB.mkEmpty_wf lead n junk hn (by omega)
  obtain ⟨rb0, hp0, hwf0, hit0, hm0, _, hbl0, _⟩ := RB.push_spec _ hwf data
    (RB.not_fails_of_le hwf (by simp only [RB.mkEmpty]; omega) data)
  obtain ⟨rb', hp, _, hm, _, hit⟩ := RB.pushes_spec _ hwf0 (by rw [hbl0, hm0]; simp only [RB.mkEmpty]; omega) chunks
  refine ⟨rb0, rb', ?_, hp, ?_⟩
  · have hl : (RB.mkEmpty lead n junk).lead = lead := rfl
    simp [RB.init, RB.pushArr, hp0, hl, bind, Except.bind, pure, Except.pure]
  · rw [hit, hit0, hm0, RB.mkEmpty_items]
    simp only [List.nil_append, RB.mkEmpty]
    rw [lastN_lastN_append]

example := C01_window_init (3 / 2) (by norm_num) (by norm_num) [] 4 (by decide) [5, 6, 7] false [9, 9, 9, 9, 9, 9] (by rw [capacity_six]; rfl)
  [[0, 1], [], [2, 3, 4, 5, 6]]

/-- **C01**, buffers whose shape is taken from the data (the constructor used by the batch generators). -/
theorem C01_window_shape_of_data (scale : ℚ) (h1 : 1 ≤ scale) (h2 : scale ≤ 2) (lead : List Nat)
    (data : List α) (hn : data ≠ []) (dt : Bool) (junk : List α) (hj : junk.length = RB.capacity scale data.length)
    (chunks : List (List α)) :
    ∃ rb0 rb, RB.init (some (lead, data)) none dt junk = .ok rb0 ∧ rb0.items = data ∧ rb0.pushes chunks = .ok rb ∧
      rb.items = lastN data.length (data ++ chunks.flatten) := by
  obtain ⟨rb0, rb, h, hp, hit⟩ := C01_window_init scale h1 h2 lead data.length (List.length_pos_iff.mpr hn) data dt junk hj chunks
  obtain ⟨rb0', rb', h', hp', hit'⟩ := C01_window_init scale h1 h2 lead data.length (List.length_pos_iff.mpr hn) data dt junk hj []
  have : rb0 = rb0' := by rw [h] at h'; exact Except.ok.inj h'
  subst this
  have : rb0 = rb' := Except.ok.inj hp'
  subst this
  refine ⟨rb0, rb, h, ?_, hp, hit⟩
  rw [hit', lastN_of_le _ _ (by simp)]; simp

example := C01_window_shape_of_data (3 / 2) (by norm_num) (by norm_num) [] [5, 6, 7, 8] (by decide) true [9, 9, 9, 9, 9, 9]
  capacity_six.symm [[0, 1], [], [2, 3, 4, 5, 6]]

/-- Non-vacuity and rewinding memory: scaling 3/2, window 4, uninitialised memory 9s. -/
example : ∃ rb, (RB.mkEmpty [] 4 [9, 9, 9, 9, 9, 9]).pushes [[0, 1], [], [2, 3, 4, 5], [6], [7, 8]] = .ok rb ∧
    rb.items = [5, 6, 7, 8] := ⟨_, rfl, by decide⟩
example : RB.capacity (3/2) 4 = 6 := by norm_num [RB.capacity]; rfl

/-- The constructor guards, ringbuffer.py:29-33. -/
theorem C01_init_guards (dt : Bool) (junk : List α) (lead : List Nat) (n : Nat) :
    RB.init (none : Option (List Nat × List α)) none dt junk = .error .runtimeError ∧
    RB.init (none : Option (List Nat × List α)) (some (lead, n)) false junk = .error .runtimeError := ⟨rfl, rfl⟩

/-! ### C02 -/

/-- **C02**: in every state reachable by any operations, a successful push reports exactly what left the window, and
reports 0 exactly if the visible content was only extended. -/
theorem C02_push_return (lead : List Nat) (n : Nat) (hn : 0 < n) (junk : List α) (hj : n ≤ junk.length)
    (ops : List (WOp α)) (rb : RB α) (hr : (RB.mkEmpty lead n junk).runOps ops = .ok rb) (d : List α) (rb' : RB α) (k : Nat)
    (hp : rb.push d = .ok (rb', k)) :
    rb'.items.length + k = rb.items.length + d.length ∧ (k = 0 ↔ rb'.items = rb.items ++ d) := by
  obtain ⟨hwf, hm, -, -⟩ := RB.runOps_sound _ (RB.mkEmpty_wf lead n junk hn hj) ops rb hr
  by_cases hf : rb.PushFails d
  · rw [RB.push_fails rb hwf d hf] at hp; cases hp
  · obtain ⟨rb1, hp1, hwf1, hit1, hm1, _, _, hv1⟩ := RB.push_spec rb hwf d hf
    rw [hp1] at hp
    obtain ⟨rfl, rfl⟩ := Prod.mk.inj (Except.ok.inj hp)
    have hl := RB.items_length hwf
    have hl1 := RB.items_length hwf1
    have := hwf.len
    unfold RB.overflow
    constructor
    · omega
    · constructor
      · intro h0
        rw [hit1, lastN_of_le _ _ (by simp; omega)]
      · intro he
        rw [he] at hl1
        simp at hl1
        omega

example := C02_push_return (α := Nat) [] 3 (by decide) [9, 9, 9, 9] (by decide) [.push [1, 2], .setItem (-1) 7] _ rfl [3, 4, 5] _ 2 rfl

example : ∃ rb rb' : RB Nat, (RB.mkEmpty [] 3 [9, 9, 9, 9]).runOps [.push [1, 2], .setItem (-1) 7] = .ok rb ∧
    rb.push [3, 4, 5] = .ok (rb', 2) ∧ rb'.items = [3, 4, 5] := ⟨_, _, rfl, rfl, by decide⟩

/-! ### C03 -/

/-- **C03**: any interleaving of pushes and writes behaves (results and exceptions) exactly as on a plain list of which
the newest `n` elements are kept. -/
theorem C03_writes_slide (scale : ℚ) (h1 : 1 ≤ scale) (h2 : scale ≤ 2) (lead : List Nat) (n : Nat) (hn : 0 < n)
    (junk : List α) (hj : junk.length = RB.capacity scale n) (ops : List (WOp α)) :
    ((RB.mkEmpty lead n junk).runOps ops).map RB.items = WOp.run n [] ops := by
  have := capacity_ge scale n h1
  have := capacity_le_two_mul scale n h2
  have := RB.runOps_refines _ (RB.mkEmpty_wf lead n junk hn (by omega)) (by simp only [RB.mkEmpty]; omega) ops
  rw [RB.mkEmpty_items] at this
  exact this

example := C03_writes_slide (3 / 2) (by norm_num) (by norm_num) [] 4 (by decide) [9, 9, 9, 9, 9, 9] (by rw [capacity_six]; rfl)
  [.push [1, 2, 3], .setSlice 1 3 [7, 8], .push [4, 5], .setItem 9 0]

example : ∃ rb, (RB.mkEmpty [] 3 [9, 9, 9, 9]).runOps [.push [1, 2, 3], .setSlice 1 3 [7, 8], .push [4], .push [5]] = .ok rb ∧
    rb.items = [8, 4, 5] := ⟨_, rfl, by decide⟩

/-! ### C04 -/

/-- **C04** (partial): pushing never fails if the scaling factor is at most 2. Missing: scaling factors above 2, for
which the property is false, see `C04_scaling_above_two_fails`. -/
theorem C04_push_total_partial (scale : ℚ) (h1 : 1 ≤ scale) (h2 : scale ≤ 2) (lead : List Nat) (n : Nat) (hn : 0 < n)
    (junk : List α) (hj : junk.length = RB.capacity scale n) (ops : List (WOp α)) (rb : RB α)
    (hr : (RB.mkEmpty lead n junk).runOps ops = .ok rb) (d : List α) : ∃ r, rb.push d = .ok r := by
  have := capacity_ge scale n h1
  have := capacity_le_two_mul scale n h2
  obtain ⟨hwf, hm, hb, -⟩ := RB.runOps_sound _ (RB.mkEmpty_wf lead n junk hn (by omega)) ops rb hr
  obtain ⟨rb1, hp, _⟩ := RB.push_spec rb hwf d (RB.not_fails_of_le hwf (by rw [hb, hm]; simp only [RB.mkEmpty]; omega) d)
  exact ⟨_, hp⟩

example := C04_push_total_partial (α := Nat) (3 / 2) (by norm_num) (by norm_num) [] 4 (by decide) [9, 9, 9, 9, 9, 9] (by rw [capacity_six]; rfl)
  [.push [1, 2, 3], .push [4, 5]] _ rfl [6, 7, 8, 9, 10, 11, 12]

/-- **C04** is false above 2: for *every* scaling factor above 2 and every window, already the first chunk of length
`2n+1` pushed on a new buffer raises `ValueError`. -/
theorem C04_scaling_above_two_fails (scale : ℚ) (h : 2 < scale) (lead : List Nat) (n : Nat) (hn : 0 < n)
    (junk : List α) (hj : junk.length = RB.capacity scale n) (d : List α) (hd : d.length = 2 * n + 1) :
    (RB.mkEmpty lead n junk).push d = .error .valueError := by
  have := capacity_gt_two_mul scale n hn h
  apply RB.push_fails _ (RB.mkEmpty_wf lead n junk hn (by omega))
  unfold RB.PushFails RB.overflow
  simp only [RB.mkEmpty]
  omega

example : (RB.mkEmpty [] 1 [0, 0, 0]).push [1, 2, 3] = .error .valueError :=
  C04_scaling_above_two_fails (5 / 2) (by norm_num) [] 1 (by decide) [0, 0, 0] (by rw [show RB.capacity (5 / 2) 1 = 3 by norm_num [RB.capacity]; rfl]; rfl) [1, 2, 3] rfl

/-- **C04**: the exact failure condition in every reachable state, for any amount of memory: the chunk overflows the
window by more than the window, and the overflow still fits behind the window. -/
theorem C04_push_fails_iff (lead : List Nat) (n : Nat) (hn : 0 < n) (junk : List α) (hj : n ≤ junk.length)
    (ops : List (WOp α)) (rb : RB α) (hr : (RB.mkEmpty lead n junk).runOps ops = .ok rb) (d : List α) :
    (∃ e, rb.push d = .error e) ↔
      (n < d.length - (n - rb.items.length) ∧ rb.vstart + n + (d.length - (n - rb.items.length)) ≤ junk.length) := by
  obtain ⟨hwf, hm, hb, -⟩ := RB.runOps_sound _ (RB.mkEmpty_wf lead n junk hn hj) ops rb hr
  have hm' : rb.vmax = n := hm
  have hb' : rb.buf.length = junk.length := hb
  rw [RB.items_length hwf, ← hb', ← hm']
  constructor
  · rintro ⟨e, he⟩
    by_contra hf
    obtain ⟨rb1, hp, _⟩ := RB.push_spec rb hwf d hf
    rw [hp] at he; cases he
  · intro hf
    exact ⟨_, RB.push_fails rb hwf d hf⟩

example := C04_push_fails_iff (α := Nat) [] 1 (by decide) [0, 0, 0] (by decide) [.push [7]] _ rfl [1, 2]

/-- The concrete witness: scaling factor 3, window 1. -/
example : (RB.mkEmpty [] 1 [0, 0, 0]).push [1, 2, 3] = .error .valueError := by decide

/-! ### C05 -/

/-- **C05**: for every amount of memory at least the window, and whatever the uninitialised memory contains: in every
reachable state the exposed window lies inside the memory, and its content is a function of the operations only. -/
theorem C05_no_uninitialised (lead : List Nat) (n : Nat) (hn : 0 < n) (junk : List α) (hj : n ≤ junk.length)
    (ops : List (WOp α)) (rb : RB α) (hr : (RB.mkEmpty lead n junk).runOps ops = .ok rb) :
    (∃ s l, rb.view = .window s l ∧ s + l ≤ rb.buf.length ∧ l ≤ n ∧ rb.buf.length = junk.length) ∧
      WOp.run n [] ops = .ok rb.items := by
  obtain ⟨hwf, hm, hb, hw⟩ := RB.runOps_sound _ (RB.mkEmpty_wf lead n junk hn hj) ops rb hr
  rw [RB.mkEmpty_items] at hw
  have hm' : rb.vmax = n := hm
  have := hwf.len; have := hwf.mem
  exact ⟨⟨_, _, hwf.view, by omega, by omega, hb⟩, hw⟩

example := C05_no_uninitialised (α := Nat) [] 2 (by decide) [9, 9, 9] (by decide) [.push [1, 2], .push [3], .setItem 0 7, .push []] _ rfl

/-- **C05**: every visible value was pushed or written by the client. -/
theorem C05_values_from_client (lead : List Nat) (n : Nat) (hn : 0 < n) (junk : List α) (hj : n ≤ junk.length)
    (ops : List (WOp α)) (rb : RB α) (hr : (RB.mkEmpty lead n junk).runOps ops = .ok rb) (x : α) (hx : x ∈ rb.items) :
    ∃ op ∈ ops, match op with
      | .push d => x ∈ d
      | .setItem _ y => x = y
      | .setSlice _ _ v => x ∈ v := by
  obtain ⟨-, hw⟩ := C05_no_uninitialised lead n hn junk hj ops rb hr
  have key : ∀ (ops : List (WOp α)) (w w' : List α), WOp.run n w ops = .ok w' → x ∈ w' → x ∈ w ∨ ∃ op ∈ ops, match op with
      | .push d => x ∈ d
      | .setItem _ y => x = y
      | .setSlice _ _ v => x ∈ v := by
    intro ops
    induction ops with
    | nil => intro w w' h hx; cases h; exact Or.inl hx
    | cons op ops ih =>
      intro w w' h hx
      simp only [WOp.run, bind, Except.bind] at h
      cases ha : op.apply n w with
      | error e => rw [ha] at h; cases h
      | ok w1 =>
        rw [ha] at h
        rcases ih w1 w' h hx with h1 | ⟨op', hm, hop⟩
        · cases op with
          | push d =>
            simp only [WOp.apply, Except.ok.injEq] at ha
            subst ha
            have : x ∈ w ++ d := List.mem_of_mem_drop h1
            rcases List.mem_append.mp this with h | h
            · exact Or.inl h
            · exact Or.inr ⟨_, List.mem_cons_self, h⟩
          | setItem i y =>
            obtain ⟨j, rfl⟩ := pySet_ok_set _ _ _ _ ha
            rcases List.mem_or_eq_of_mem_set h1 with h | h
            · exact Or.inl h
            · exact Or.inr ⟨_, List.mem_cons_self, h⟩
          | setSlice a b v =>
            simp only [WOp.apply, pyAssign, assignSlice] at ha
            split at ha
            · cases ha
              simp only [List.mem_append] at h1
              rcases h1 with (h | h) | h
              · exact Or.inl (List.mem_of_mem_take h)
              · exact Or.inr ⟨_, List.mem_cons_self, h⟩
              · exact Or.inl (List.mem_of_mem_drop h)
            · split at ha
              · cases ha
                simp only [List.mem_append] at h1
                rcases h1 with (h | h) | h
                · exact Or.inl (List.mem_of_mem_take h)
                · refine Or.inr ⟨_, List.mem_cons_self, ?_⟩
                  simp only [List.mem_singleton]
                  exact List.eq_of_mem_replicate h
                · exact Or.inl (List.mem_of_mem_drop h)
              · cases ha
        · exact Or.inr ⟨op', List.mem_cons_of_mem _ hm, hop⟩
  rcases key ops [] rb.items hw hx with h | h
  · cases h
  · exact h

example := C05_values_from_client (α := Nat) [] 2 (by decide) [9, 9, 9] (by decide) [.push [1, 2], .push [3], .setItem 0 7, .push []] _ rfl 7 (by decide)

example : ∃ rb, (RB.mkEmpty [] 2 [9, 9, 9]).runOps [.push [1, 2], .push [3], .setItem 0 7, .push []] = .ok rb ∧ 7 ∈ rb.items :=
  ⟨_, rfl, by decide⟩

example := C01_init_guards (α := Nat) true [9, 9, 9] [2] 3

end Verif
