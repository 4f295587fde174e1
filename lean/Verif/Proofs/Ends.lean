import Verif.Proofs.Full

/-! What holds if a generator returns, and which exceptions it can raise. -/

set_option linter.unusedSectionVars false

namespace Pymnet

open Py Models

variable {τ ρ β : Type}

/-- If the call returns, `P` holds of the result; an exception it raises satisfies `B`. -/
def Ends (B : Err → Prop) (x : Except Stop τ) (P : τ → Prop) : Prop :=
  match x with
  | .ok s => P s
  | .error .more => True
  | .error (.raised e) => B e

theorem Ends.ok {B : Err → Prop} {x : Except Stop τ} {P : τ → Prop} (h : Ends B x P) {s : τ} (hx : x = .ok s) : P s := by
  subst hx; exact h

theorem Ends.err {B : Err → Prop} {x : Except Stop τ} {P : τ → Prop} (h : Ends B x P) {e : Err}
    (hx : x = .error (.raised e)) : B e := by
  subst hx; exact h

theorem Ends.mono {B : Err → Prop} {x : Except Stop τ} {P Q : τ → Prop} (h : Ends B x P) (hpq : ∀ s, P s → Q s) :
    Ends B x Q := by
  match x, h with
  | .ok s, h => exact hpq s h
  | .error .more, _ => trivial
  | .error (.raised e), h => exact h

theorem forS_ends {B : Err → Prop} {f : τ → β → Except Stop τ} {P : List β → τ → Prop} (l : List β) {s : τ} (h0 : P [] s)
    (hstep : ∀ pre b post s, l = pre ++ b :: post → P pre s → Ends B (f s b) (P (pre ++ [b]))) :
    Ends B (forS f l s) (P l) := by
  have key : ∀ (post pre : List β) (s : τ), l = pre ++ post → P pre s → Ends B (forS f post s) (P l) := by
    intro post
    induction post with
    | nil => intro pre s hl hp; simp at hl; subst hl; exact hp
    | cons b post ih =>
      intro pre s hl hp
      have h := hstep pre b post s hl hp
      rw [forS]
      match f s b, h with
      | .ok s1, h => exact ih (pre ++ [b]) s1 (by simp [hl]) h
      | .error .more, _ => trivial
      | .error (.raised e), h => exact h
  exact key l [] s rfl h0

end Pymnet
