import Verif.Proofs.OwnershipNew

/-!
# The patterns of failing calls (C94 to C97)

C94 to C97 hold for every pattern `fails` of failing calls.  Here: these are really all patterns.
-/

namespace Clever.Props

open Clever Clever.Spec

/-- Whether a call succeeds, which returns a new object or block (`newObj`) or a status (`callOk`). -/
def outcome {δ : Type} (fails : Fails) (new : Bool) (c : Call) : CM (CState δ) Bool :=
  if new then do
    let o ← newObj fails c
    return o.isSome
  else callOk fails c

/-- The outcomes of a number of calls, one after the other. -/
def outcomes {δ : Type} (fails : Fails) : List (Bool × Call) → CM (CState δ) (List Bool)
  | [] => pure []
  | c :: cs => do
    let ok ← outcome fails c.1 c.2
    let oks ← outcomes fails cs
    return ok :: oks

/-- The patterns of failing calls of C94 to C97 include every one there is: for any calls, in any state, and any outcomes,
some `fails` makes these calls end like this.  In particular two calls of the same kind can differ. -/
theorem C94_all_patterns {δ : Type} (s : CState δ) (calls : List ((Bool × Call) × Bool)) :
    ∃ (fails : Fails) (s' : CState δ), outcomes fails (calls.map (·.1)) s = .ok (calls.map (·.2)) s' := by
  refine ⟨fun _ n => !((calls.map (·.2))[n - s.led.calls]?.getD true), ?_⟩
  generalize hf : (fun (_ : Call) n => !((calls.map (·.2))[n - s.led.calls]?.getD true)) = fails
  have key : ∀ (cs pre : List ((Bool × Call) × Bool)) (t : CState δ), t.led.calls = s.led.calls + pre.length →
      calls = pre ++ cs → ∃ s', outcomes fails (cs.map (·.1)) t = .ok (cs.map (·.2)) s' := by
    intro cs
    induction cs with
    | nil => intro pre t _ _; exact ⟨t, rfl⟩
    | cons x cs ih =>
      intro pre t ht hc
      have hx : ∀ c, fails c t.led.calls = !x.2 := by
        intro c
        rw [← hf, ht]
        simp [hc]
      have h1 : ∃ t', outcome fails x.1.1 x.1.2 t = .ok x.2 t' ∧ t'.led.calls = s.led.calls + (pre ++ [x]).length := by
        unfold outcome
        split
        · cases hb : x.2 <;> simp only [bind, pure, newObj, hx, hb] <;>
            exact ⟨_, rfl, by simp [Ledger.add, ht, Nat.add_assoc]⟩
        · simp only [callOk, hx, Bool.not_not]
          exact ⟨_, rfl, by simp [ht, Nat.add_assoc]⟩
      obtain ⟨t', h2, h3⟩ := h1
      obtain ⟨s', h⟩ := ih (pre ++ [x]) t' h3 (by simp [hc])
      exact ⟨s', by simp [outcomes, bind, pure, h2, h]⟩
  exact key calls [] s (by simp) rfl

/-- Two calls of `PyList_Append`, of which the second fails, and then a call of `PyTuple_New` that succeeds. -/
example : ∃ (fails : Fails) (s' : CState Unit),
    outcomes fails [(false, .listAppend), (false, .listAppend), (true, .tupleNew)] ⟨⟨0, 5, fun _ => 0⟩, ()⟩ =
      .ok [true, false, true] s' :=
  C94_all_patterns _ [((false, .listAppend), true), ((false, .listAppend), false), ((true, .tupleNew), true)]

end Clever.Props
