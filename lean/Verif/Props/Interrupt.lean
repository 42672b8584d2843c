import Verif.Model.Interrupt

/-!
# C17: the SIGINT handler is always restored
-/

namespace Verif

theorem World.deliver_flags_length (w : World) : w.deliver.1.flags.length = w.flags.length := by
  unfold World.deliver; split <;> simp

theorem World.restore_flags (w : World) (h : Handler) : (w.restore h).1.flags = w.flags := by
  unfold World.restore; split <;> rfl

/-- flags are never removed -/
theorem Prog.run_flags_length (cell : Option Nat) (p : Prog) (w : World) : w.flags.length ≤ (p.run cell w).1.flags.length := by
  induction p generalizing cell w with
  | ret => exact le_rfl
  | raise => exact le_rfl
  | sigint next ih =>
    unfold Prog.run
    have := World.deliver_flags_length w
    generalize w.deliver = r at *
    obtain ⟨w1, o⟩ := r
    cases o
    · simp only at this ⊢; have := ih cell w1; omega
    · simp only at this ⊢; omega
  | setHandler id r next ih => unfold Prog.run; exact ih cell { w with handler := .user id r }
  | check next ih => unfold Prog.run; exact ih _ cell w
  | catcher body next ihb ihn =>
    unfold Prog.run
    simp only
    have h1 := ihb (some w.flags.length) { w with flags := w.flags ++ [false], handler := .setter w.flags.length }
    generalize body.run _ _ = r at *
    obtain ⟨w1, o⟩ := r
    have h2 := World.restore_flags w1 w.handler
    generalize w1.restore w.handler = r2 at *
    obtain ⟨w2, o2⟩ := r2
    simp only [List.length_append, List.length_singleton] at h1 h2 ⊢
    cases o2 <;> cases o <;> simp only <;> first | (rw [h2]; omega) | (have := ihn cell w2; rw [h2] at this; omega)

/-- **C17** (partial): whatever the body does (returns, raises, receives any number of SIGINTs at any moment, changes the
handler, nests further catchers), when the `with` block is left the handler is the one from before. Missing: handlers that
were not installed from Python, for which it is false, see `C17_foreign_handler_lost`. -/
theorem C17_handler_restored_partial (cell : Option Nat) (body : Prog) (w : World) (h : w.handler ≠ .foreign) :
    ((Prog.catcher body .ret).run cell w).1.handler = w.handler := by
  unfold Prog.run
  simp only
  generalize body.run _ _ = r
  obtain ⟨w1, o⟩ := r
  unfold World.restore
  cases hh : w.handler with
  | foreign => exact absurd hh h
  | setter i => cases o <;> simp [Prog.run]
  | user id r => cases o <;> simp [Prog.run]

example := C17_handler_restored_partial none (.sigint (.check fun b => if b then .raise else .ret)) ⟨.user 7 true, [false], 2⟩ (by decide)

/-- **C17**: the exception of the body (and only that) is passed on. -/
theorem C17_ending (cell : Option Nat) (body : Prog) (w : World) (h : w.handler ≠ .foreign) :
    ((Prog.catcher body .ret).run cell w).2 =
      (body.run (some w.flags.length) { w with flags := w.flags ++ [false], handler := .setter w.flags.length }).2 := by
  conv_lhs => unfold Prog.run
  simp only
  generalize body.run _ _ = r
  obtain ⟨w1, o⟩ := r
  unfold World.restore
  cases hh : w.handler with
  | foreign => exact absurd hh h
  | setter i => cases o <;> simp [Prog.run]
  | user id r => cases o <;> simp [Prog.run]

example := C17_ending none (.sigint (.check fun b => if b then .raise else .ret)) ⟨.user 7 true, [false], 2⟩ (by decide)

/-- Programs that do not install handlers of their own (the calculators and everything they call). -/
inductive Prog.Polite : Prog → Prop
  | ret : Polite .ret
  | raise : Polite .raise
  | sigint {next} : Polite next → Polite (.sigint next)
  | check {next} : (∀ b, Polite (next b)) → Polite (.check next)
  | catcher {body next} : Polite body → Polite next → Polite (.catcher body next)

/-- Inside a catcher a polite program keeps `set_interrupted` installed, passes no SIGINT to another handler, and never
clears the flag. -/
theorem Prog.Polite.run_inside {p : Prog} (hp : p.Polite) (i : Nat) (w : World) (hw : w.handler = .setter i)
    (hi : i < w.flags.length) :
    (p.run (some i) w).1.handler = .setter i ∧ (p.run (some i) w).1.escaped = w.escaped ∧
      ∀ k : Nat, w.flags[k]? = some true → (p.run (some i) w).1.flags[k]? = some true := by
  induction hp generalizing i w with
  | ret => exact ⟨hw, rfl, fun k h => h⟩
  | raise => exact ⟨hw, rfl, fun k h => h⟩
  | @sigint next _ ih =>
    unfold Prog.run World.deliver
    simp only [hw]
    obtain ⟨a, b, c⟩ := ih i { handler := .setter i, flags := w.flags.set i true, escaped := w.escaped } rfl (by simpa using hi)
    refine ⟨a, b, fun k hk => c k ?_⟩
    simp only [List.getElem?_set]
    split
    · rename_i h; subst h; simp
    · exact hk
  | check _ ih => unfold Prog.run; exact ih _ i w hw hi
  | @catcher body next _ _ ihb ihn =>
    unfold Prog.run
    simp only
    obtain ⟨a, b, c⟩ := ihb w.flags.length { w with flags := w.flags ++ [false], handler := .setter w.flags.length } rfl (by simp)
    have hlen := Prog.run_flags_length (some w.flags.length) body { w with flags := w.flags ++ [false], handler := .setter w.flags.length }
    generalize body.run _ _ = r at *
    obtain ⟨w1, o⟩ := r
    simp only [hw, World.restore, List.length_append, List.length_singleton] at *
    have hk : ∀ k : Nat, w.flags[k]? = some true → w1.flags[k]? = some true := by
      intro k hk
      apply c
      rw [List.getElem?_append_left]
      · exact hk
      · exact (List.getElem?_eq_some_iff.mp hk).1
    cases o with
    | exception => exact ⟨rfl, b, hk⟩
    | normal =>
      obtain ⟨a', b', c'⟩ := ihn i { w1 with handler := .setter i } rfl (by simp only; omega)
      exact ⟨a', b'.trans b, fun k h => c' k (hk k h)⟩

/-- **C17**: a SIGINT inside a calculation never reaches the original handler. -/
theorem C17_never_escapes (cell : Option Nat) (body : Prog) (hp : body.Polite) (w : World) (h : w.handler ≠ .foreign) :
    ((Prog.catcher body .ret).run cell w).1.escaped = w.escaped := by
  unfold Prog.run
  simp only
  obtain ⟨_, b, _⟩ := hp.run_inside w.flags.length { w with flags := w.flags ++ [false], handler := .setter w.flags.length } rfl (by simp)
  generalize body.run _ _ = r at *
  obtain ⟨w1, o⟩ := r
  unfold World.restore
  cases hh : w.handler with
  | foreign => exact absurd hh h
  | setter i => cases o <;> exact b
  | user id r => cases o <;> exact b

example := C17_never_escapes none (.sigint (.check fun b => if b then .raise else .ret)) (.sigint (.check fun b => by cases b <;> simp <;> constructor))
  ⟨.user 7 true, [false], 2⟩ (by decide)

/-- `p` reaches a look at `is_interrupted()` (of this catcher) after some SIGINT arrived in this activation: this relation
executes `p` up to its next own check. `hit` says whether a SIGINT was seen so far. -/
def Prog.checksSeen (i : Nat) : Prog → World → Bool → List (Bool × Bool)
  | .ret, _, _ => []
  | .raise, _, _ => []
  | .sigint next, w, _ => next.checksSeen i w.deliver.1 true
  | .setHandler id r next, w, hit => next.checksSeen i { w with handler := .user id r } hit
  | .check next, w, hit => (hit, w.flags.getD i false) :: (next (w.flags.getD i false)).checksSeen i w hit
  | .catcher body next, w, hit =>
      let r := (Prog.catcher body .ret).run (some i) w
      match r.2 with
      | .normal => next.checksSeen i r.1 hit
      | .exception => []

/-- **C17**: a SIGINT is remembered: at every look at `is_interrupted()` of an activation the answer is exactly whether a
SIGINT arrived since the block was entered (SIGINTs during a nested calculation are taken by the nested one). -/
theorem C17_remembered (body : Prog) (hp : body.Polite) (w : World) :
    ∀ c ∈ body.checksSeen w.flags.length { w with flags := w.flags ++ [false], handler := .setter w.flags.length } false,
      c.1 = c.2 := by
  have key : ∀ (p : Prog), p.Polite → ∀ (i : Nat) (w : World) (hit : Bool), w.handler = .setter i → w.flags[i]? = some hit →
      ∀ c ∈ p.checksSeen i w hit, c.1 = c.2 := by
    intro p hp
    induction hp with
    | ret => intro i w hit _ _ c hc; cases hc
    | raise => intro i w hit _ _ c hc; cases hc
    | @sigint next _ ih =>
      intro i w hit hw hf c hc
      unfold Prog.checksSeen at hc
      have hi : i < w.flags.length := (List.getElem?_eq_some_iff.mp hf).1
      refine ih i _ true ?_ ?_ c hc
      · unfold World.deliver; simp only [hw]
      · unfold World.deliver; simp only [hw]; simp [hi]
    | check _ ih =>
      intro i w hit hw hf c hc
      unfold Prog.checksSeen at hc
      rcases List.mem_cons.mp hc with rfl | h
      · simp [List.getD, hf]
      · exact ih _ i w hit hw hf c h
    | @catcher body next hb hn ihb ihn =>
      intro i w hit hw hf c hc
      unfold Prog.checksSeen at hc
      simp only at hc
      have hi : i < w.flags.length := (List.getElem?_eq_some_iff.mp hf).1
      have h1 := C17_handler_restored_partial (some i) body w (by rw [hw]; simp)
      have h2 : ((Prog.catcher body .ret).run (some i) w).1.flags[i]? = some hit := by
        unfold Prog.run
        simp only
        have hout : ∀ (p : Prog), p.Polite → ∀ (j : Nat) (u : World), u.handler = .setter j → j < u.flags.length →
            ∀ k < j, (p.run (some j) u).1.flags[k]? = u.flags[k]? := by
          intro p hp
          induction hp with
          | ret => intro j u _ _ k hk; rfl
          | raise => intro j u _ _ k hk; rfl
          | @sigint next _ ih =>
            intro j u hu hj k hk
            unfold Prog.run World.deliver
            simp only [hu]
            rw [ih j _ rfl (by simpa using hj) k hk]
            simp only [List.getElem?_set]
            rw [if_neg (by omega)]
          | check _ ih => intro j u hu hj k hk; unfold Prog.run; exact ih _ j u hu hj k hk
          | @catcher b n hb _ ihb ihn =>
            intro j u hu hj k hk
            unfold Prog.run
            simp only
            have e := ihb u.flags.length { u with flags := u.flags ++ [false], handler := .setter u.flags.length } rfl (by simp) k (by omega)
            have hlen := Prog.run_flags_length (some u.flags.length) b { u with flags := u.flags ++ [false], handler := .setter u.flags.length }
            generalize b.run _ _ = r at *
            obtain ⟨u1, o⟩ := r
            simp only [hu, World.restore, List.length_append, List.length_singleton] at *
            have e' : u1.flags[k]? = u.flags[k]? := by
              rw [e, List.getElem?_append_left (by omega)]
            cases o with
            | exception => exact e'
            | normal =>
              simp only
              rw [ihn j { u1 with handler := .setter j } rfl (by simp only; omega) k hk]
              exact e'
        have e := hout body hb w.flags.length { w with flags := w.flags ++ [false], handler := .setter w.flags.length } rfl (by simp) i hi
        generalize body.run _ _ = r at *
        obtain ⟨w1, o⟩ := r
        simp only [hw, World.restore] at *
        rw [List.getElem?_append_left hi, hf] at e
        cases o <;> exact e
      split at hc
      · exact ihn i _ hit (by rw [h1, hw]) h2 c hc
      · cases hc
  exact key body hp _ _ false rfl (by simp)

example := C17_remembered (.sigint (.check fun b => if b then .raise else .ret)) (.sigint (.check fun b => by cases b <;> simp <;> constructor))
  ⟨.user 7 true, [false], 2⟩

/-- **C17** is false for a handler that was not installed from Python: `signal.getsignal` returns `None`, restoring it
raises, and `set_interrupted` stays installed for good. -/
theorem C17_foreign_handler_lost (cell : Option Nat) (w : World) (h : w.handler = .foreign) :
    (Prog.catcher .ret .ret).run cell w =
      ({ w with flags := w.flags ++ [false], handler := .setter w.flags.length }, .exception) := by
  simp [Prog.run, World.restore, h]

example := C17_foreign_handler_lost none ⟨.foreign, [false], 2⟩ rfl

/-- Concrete case: two SIGINTs inside (one in a nested calculation), then an exception. -/
example : (Prog.catcher (.sigint (.catcher (.sigint (.check fun b => if b then .raise else .ret)) .ret)) .ret).run none
    ⟨.user 7 true, [], 0⟩ = (⟨.user 7 true, [true, true], 0⟩, .exception) := by decide
example : (Prog.sigint (.check fun b => if b then .raise else .ret)).Polite :=
  .sigint (.check fun b => by cases b <;> simp <;> constructor)
example : (Prog.check fun _ => .sigint (.check fun _ => .ret)).checksSeen 0 ⟨.setter 0, [false], 0⟩ false =
    [(false, false), (true, true)] := by decide

end Verif
